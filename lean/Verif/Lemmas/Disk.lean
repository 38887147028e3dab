import Verif.Model.Disk
import Verif.Lemmas.Logged
import Verif.Lemmas.Concurrent
/-
Runs on a failing disk and runs on one that works.
-/
namespace Bloscpack
variable {μ σ σ' α β : Type}

/-! ### the log only grows -/

/-- `u` can come after `t`: something more has been written -/
def FP.Later (t u : FP) : Prop := ∃ w, u.log = t.log ++ w ∧ u.data = Spec.replay t.data w

theorem FP.Later.refl (t : FP) : t.Later t := ⟨[], by simp, rfl⟩
theorem FP.Later.trans {t u v : FP} (h : t.Later u) (h' : u.Later v) : t.Later v := by
  obtain ⟨w, h1, h2⟩ := h
  obtain ⟨w', h3, h4⟩ := h'
  exact ⟨w ++ w', by rw [h3, h1, List.append_assoc], by rw [h4, h2, replay_append]⟩

/-! ### simulation -/

/-- How a state `σ'` with disks that fail relates to a state `σ` with disks that work. -/
structure Pairing (σ σ' : Type) where
  view : σ' → σ
  /-- nothing has failed -/
  good : σ' → Prop
  kept : σ' → σ' → Prop
  later : σ → σ → Prop
  /-- `after s s' t`: started in `s`, something failed, and the state is `s'`; without the failure it would be `t` at the end -/
  after : σ' → σ' → σ → Prop
  kept_refl : ∀ s, kept s s
  kept_trans : ∀ {s t u}, kept s t → kept t u → kept s u
  later_refl : ∀ t, later t t
  later_trans : ∀ {t u v}, later t u → later u v → later t v
  after_later : ∀ {s s' t u}, after s s' t → later t u → after s s' u
  kept_after : ∀ {s s1 s2 t}, kept s s1 → later (view s) (view s1) → after s1 s2 t → after s s2 t

/-- `m'` does the same as `m` until something fails, and then raises `OSError` -/
def Sim (W : Pairing σ σ') (m : Proc σ α) (m' : Proc σ' α) : Prop :=
  (∀ t, W.later t (m t).2) ∧
  ∀ s, W.good s →
    (W.good (m' s).2 ∧ (m' s).1 = (m (W.view s)).1 ∧ W.view (m' s).2 = (m (W.view s)).2 ∧ W.kept s (m' s).2) ∨
    (¬ W.good (m' s).2 ∧ (m' s).1 = .error .osError ∧ W.after s (m' s).2 (m (W.view s)).2)

namespace Sim
variable {W : Pairing σ σ'}

theorem pure (a : α) : Sim W (Proc.pure a) (Proc.pure a) :=
  ⟨fun _ => W.later_refl _, fun _ h => .inl ⟨h, rfl, rfl, W.kept_refl _⟩⟩
theorem ofExcept (x : Except Err α) : Sim W (Proc.ofExcept x) (Proc.ofExcept x) :=
  ⟨fun _ => W.later_refl _, fun _ h => .inl ⟨h, rfl, rfl, W.kept_refl _⟩⟩
theorem raise (e : Err) : Sim W (Proc.raise e : Proc σ α) (Proc.raise e) := ofExcept (.error e)
theorem raiseIf (b : Prop) [Decidable b] (e : Err) : Sim W (Proc.raiseIf b e) (Proc.raiseIf b e) := by
  unfold Proc.raiseIf
  split
  · exact raise e
  · exact pure ()

theorem bind {m : Proc σ α} {m' : Proc σ' α} {f : α → Proc σ β} {f' : α → Proc σ' β} (hm : Sim W m m') (hf : ∀ a, Sim W (f a) (f' a)) :
    Sim W (m >>= f) (m' >>= f') := by
  have hl : ∀ t, W.later t ((m >>= f) t).2 := by
    intro t
    have h1 := hm.1 t
    rw [Proc.bind_apply]
    generalize m t = q at h1 ⊢
    obtain ⟨r, u⟩ := q
    cases r with
    | error e => exact h1
    | ok a => exact W.later_trans h1 ((hf a).1 u)
  refine ⟨hl, fun s hs => ?_⟩
  have hg := hm.1 (W.view s)
  have h := hm.2 s hs
  rw [Proc.bind_apply, Proc.bind_apply]
  generalize m' s = q' at h ⊢
  generalize m (W.view s) = q at h hg ⊢
  obtain ⟨r', s'⟩ := q'
  obtain ⟨r, t⟩ := q
  rcases h with ⟨h1, h2, h3, h4⟩ | ⟨h1, h2, h3⟩
  · simp only at h1 h2 h3 h4 hg
    subst h2 h3
    cases r' with
    | error e => exact .inl ⟨h1, rfl, rfl, h4⟩
    | ok a =>
      rcases (hf a).2 s' h1 with ⟨g1, g2, g3, g4⟩ | ⟨g1, g2, g3⟩
      · exact .inl ⟨g1, g2, g3, W.kept_trans h4 g4⟩
      · exact .inr ⟨g1, g2, W.kept_after h4 hg g3⟩
  · simp only at h1 h2 h3
    subst h2
    refine .inr ⟨h1, rfl, ?_⟩
    cases r with
    | error e => exact h3
    | ok a => exact W.after_later h3 ((hf a).1 t)

end Sim

/-! ### one file -/

/-- `s` failed and is now `s'`; what is on the disk has arrived from writes that `t` has in its log -/
def Disk.Failed (s s' : Disk) (t : FP) : Prop :=
  ∃ k x log rest, some (k, x) ∈ s.faults ∧ t.log = log ++ rest ∧ s'.lost = some (arrived s.before log k x)

def diskWorld : Pairing FP Disk where
  view := Disk.fp
  good s := s.lost = none
  kept s s' := s'.before = s.before ∧ ∀ f ∈ s'.faults, f ∈ s.faults
  later := FP.Later
  after := Disk.Failed
  kept_refl _ := ⟨rfl, fun _ h => h⟩
  kept_trans h h' := ⟨h'.1.trans h.1, fun f hf => h.2 f (h'.2 f hf)⟩
  later_refl := FP.Later.refl
  later_trans := FP.Later.trans
  after_later := by
    rintro s s' t u ⟨k, x, log, rest, h1, h2, h3⟩ ⟨w, h4, -⟩
    exact ⟨k, x, log, rest ++ w, h1, by rw [h4, h2, List.append_assoc], h3⟩
  kept_after := by
    rintro s s1 s2 t h - ⟨k, x, log, rest, h1, h2, h3⟩
    exact ⟨k, x, log, rest, h.2 _ h1, h2, by rw [h3, h.1]⟩

namespace Sim

theorem op {m : Proc FP α} (h : Logged id m) : Sim diskWorld m (Disk.op m) := by
  refine ⟨fun t => h t, fun s hs => ?_⟩
  obtain ⟨before, fp, faults, lost⟩ := s
  obtain rfl : lost = none := hs
  match faults with
  | [] => exact .inl ⟨rfl, rfl, rfl, rfl, fun _ h => h⟩
  | none :: fs => exact .inl ⟨rfl, rfl, rfl, rfl, fun _ h => List.mem_cons_of_mem _ h⟩
  | some (k, t) :: fs => exact .inr ⟨nofun, rfl, k, t, _, [], by simp, (List.append_nil _).symm, rfl⟩

theorem read (n : Int) : Sim diskWorld (fpRead n) (fpRead n) := op (.readOnly (.read n))
theorem seekRel (n : Int) : Sim diskWorld (fpSeekRel n) (fpSeekRel n) := op (.readOnly (.seekRel n))
theorem write (bs : Bytes) : Sim diskWorld (fpWrite bs) (fpWrite bs) := op (.write bs)
theorem seek (n : Int) : Sim diskWorld (fpSeek n) (fpSeek n) := op (.readOnly (.seek n))
theorem tell : Sim diskWorld fpTell fpTell := ⟨fun t => .refl t, fun s hs => .inl ⟨hs, rfl, rfl, diskWorld.kept_refl s⟩⟩

theorem writeZeros (n : Nat) : Sim diskWorld (writeZeros n) (writeZeros n) := by
  induction n with
  | zero => exact pure ()
  | succ n ih => exact bind (write _) fun _ => ih

theorem writeMetadata (E : Env μ) (md : Option μ) (m : MetadataArgs) : Sim diskWorld (writeMetadata E md m) (writeMetadata E md m) := by
  unfold Bloscpack.writeMetadata
  refine bind (ofExcept _) fun s => bind (write _) fun _ => bind (write _) fun _ => bind (writeZeros _) fun _ => ?_
  split
  · exact bind (write _) fun _ => pure _
  · exact pure _

theorem readBloscpackHeader : Sim diskWorld readBloscpackHeader readBloscpackHeader :=
  bind (read _) fun _ => bind (ofExcept _) fun _ => bind (raiseIf _ _) fun _ => pure _

theorem readMetadata (E : Env μ) : Sim diskWorld (readMetadata E) (readMetadata E) := by
  unfold Bloscpack.readMetadata
  refine bind (read _) fun _ => bind (ofExcept _) fun h => bind (read _) fun _ => bind (seekRel _) fun _ => ?_
  split
  · exact bind (ofExcept _) fun _ => bind (read _) fun _ => bind (raiseIf _ _) fun _ => bind (ofExcept _) fun _ => pure _
  · exact bind (ofExcept _) fun _ => pure _

theorem readOffsets (h : BloscpackHeader) : Sim diskWorld (readOffsets h) (readOffsets h) := by
  unfold Bloscpack.readOffsets
  split
  · split
    · exact raise _
    · exact bind (raiseIf _ _) fun _ => bind (read _) fun _ => ofExcept _
  · exact pure _

theorem readBeginning (E : Env μ) : Sim diskWorld (readBeginning E) (readBeginning E) := by
  unfold Bloscpack.readBeginning
  refine bind readBloscpackHeader fun h => bind ?_ fun _ => bind (readOffsets _) fun _ => pure _
  split
  · exact bind (readMetadata E) fun _ => pure _
  · exact pure _

theorem readCompressedChunk (impl : Hash) : Sim diskWorld (readCompressedChunk impl) (readCompressedChunk impl) := by
  unfold Bloscpack.readCompressedChunk
  refine bind (read _) fun _ => bind (ofExcept _) fun _ => bind (seekRel _) fun _ => bind (read _) fun _ => ?_
  split
  · exact bind (read _) fun _ => pure _
  · exact pure _

theorem writeOffsets (os : List Int) : Sim diskWorld (writeOffsets os) (writeOffsets os) := bind (ofExcept _) fun _ => write _

theorem writeCompressedChunk (c d : Bytes) : Sim diskWorld (writeCompressedChunk c d) (writeCompressedChunk c d) := by
  unfold Bloscpack.writeCompressedChunk
  refine bind (write _) fun _ => ?_
  split
  · exact write _
  · exact pure _

end Sim

/-! ### a sink and its file -/

def sinkWorld : Pairing FPSink (FPSinkOf Disk) where
  view s := { fp := s.fp.fp, meta_total := s.meta_total, header := s.header, impl := s.impl, offset_storage := s.offset_storage }
  good s := s.fp.lost = none
  kept s s' := diskWorld.kept s.fp s'.fp
  later t u := t.fp.Later u.fp
  after s s' t := Disk.Failed s.fp s'.fp t.fp
  kept_refl _ := diskWorld.kept_refl _
  kept_trans := diskWorld.kept_trans
  later_refl _ := FP.Later.refl _
  later_trans := FP.Later.trans
  after_later h h' := diskWorld.after_later h h'
  kept_after h h' h'' := diskWorld.kept_after h h' h''

namespace Sim

theorem onFP {m : Proc FP α} {m' : Proc Disk α} (h : Sim diskWorld m m') : Sim sinkWorld (FPSink.onFP m) (FPSink.onFP m') := by
  refine ⟨fun t => h.1 t.fp, fun s hs => ?_⟩
  rcases h.2 s.fp hs with ⟨h1, h2, h3, h4⟩ | ⟨h1, h2, h3⟩
  · refine .inl ⟨h1, h2, ?_, h4⟩
    simp only [sinkWorld, FPSink.onFP]
    rw [show (m' s.fp).2.fp = (m s.fp.fp).2 from h3]
  · exact .inr ⟨h1, h2, h3⟩

theorem modify {f : FPSink → FPSink} {f' : FPSinkOf Disk → FPSinkOf Disk} (h : ∀ s, (f' s).fp = s.fp) (h' : ∀ s, (f s).fp = s.fp)
    (hv : ∀ s, sinkWorld.view (f' s) = f (sinkWorld.view s)) : Sim sinkWorld (Proc.modify f) (Proc.modify f') := by
  refine ⟨fun t => ?_, fun s hs => .inl ⟨?_, rfl, hv s, ?_⟩⟩
  · show FP.Later t.fp (f t).fp
    rw [h' t]; exact .refl _
  · show (f' s).fp.lost = none
    rw [h s]; exact hs
  · show diskWorld.kept s.fp (f' s).fp
    rw [h s]; exact diskWorld.kept_refl _

/-- a procedure that first looks at the sink -/
theorem get {f : FPSink → Proc FPSink α} {f' : FPSinkOf Disk → Proc (FPSinkOf Disk) α} (hf : ∀ s', Sim sinkWorld (f (sinkWorld.view s')) (f' s')) :
    Sim sinkWorld (Proc.get >>= f) (Proc.get >>= f') := by
  refine ⟨fun t => ?_, fun s hs => ?_⟩
  · exact (hf { t with fp := { before := [], fp := t.fp } }).1 t
  · exact (hf s).2 s hs

theorem put (i : Nat) (c : Bytes) : Sim sinkWorld (FPSink.put i c) (FPSink.put i c) := by
  unfold FPSink.put
  refine get fun s => bind (onFP (writeCompressedChunk _ _)) fun _ => ?_
  show Sim _ (if s.header.offsets = true then _ else _) _
  split
  · exact bind (ofExcept _) fun _ => modify (fun _ => rfl) (fun _ => rfl) fun _ => rfl
  · exact pure _

theorem initOffsets : Sim sinkWorld FPSink.initOffsets FPSink.initOffsets := by
  unfold FPSink.initOffsets
  refine get fun s => ?_
  show Sim _ (if s.header.offsets = true then (match s.header.totalProspectiveChunks with | none => _ | some total => _) else _) _
  split
  · cases s.header.totalProspectiveChunks with
    | none => exact raise _
    | some total =>
      exact bind (modify (fun _ => rfl) (fun _ => rfl) fun _ => rfl) fun _ => bind (ofExcept _) fun _ => bind (raiseIf _ _) fun _ => onFP (write _)
  · exact pure _

theorem finalize : Sim sinkWorld FPSink.finalize FPSink.finalize := by
  unfold FPSink.finalize
  refine get fun s => ?_
  show Sim _ (if s.header.offsets = true then _ else _) _
  split
  · exact bind (onFP (seek _)) fun _ => onFP (writeOffsets _)
  · exact pure _

theorem packLoop (E : Env μ) (a : BloscArgs) (i : Nat) (cs : List Bytes) :
    Sim sinkWorld (packLoop E (compressedFPSink E) a i cs) (packLoop E (compressedFPSink E) a i cs) := by
  induction cs generalizing i with
  | nil => exact pure _
  | cons c cs ih => exact bind (ofExcept _) fun _ => bind (put _ _) fun _ => ih _


theorem packMetadata (E : Env μ) (md : Option μ) (m : MetadataArgs) :
    Sim sinkWorld (packMetadata (compressedFPSink E) md m) (packMetadata (compressedFPSink E) md m) := by
  unfold Bloscpack.packMetadata
  split
  · exact bind (onFP (writeMetadata _ _ _)) fun _ => bind (modify (fun _ => rfl) (fun _ => rfl) fun _ => rfl) fun _ => pure _
  · exact pure _

theorem pack (E : Env μ) (source : PlainSource) (n c l : Int) (md : Option μ) (a : BloscArgs) (b : BloscpackArgs) (m : MetadataArgs) :
    Sim sinkWorld (pack E source (compressedFPSink E) n c l md a b m) (pack E source (compressedFPSink E) n c l md a b m) := by
  unfold Bloscpack.pack
  refine bind (ofExcept _) fun h => bind (bind (ofExcept _) fun _ => modify (fun _ => rfl) (fun _ => rfl) fun _ => rfl) fun _ =>
    bind (get fun s => bind (ofExcept _) fun _ => onFP (write _)) fun _ => bind (packMetadata E md m) fun _ => bind initOffsets fun _ =>
    bind (packLoop _ _ _ _) fun _ => ?_
  split
  · exact raise _
  · exact bind finalize fun _ => pure _

theorem appendLoop (E : Env μ) (a : BloscArgs) (i : Nat) (cs : List Bytes) : Sim sinkWorld (appendLoop E a i cs) (appendLoop E a i cs) := by
  induction cs generalizing i with
  | nil => exact pure _
  | cons c cs ih => exact bind (ofExcept _) fun _ => bind (put _ _) fun _ => ih _

theorem withSink_eq {ω : Type} (h : BloscpackHeader) (impl : Hash) (st : List Int) (m : Proc (FPSinkOf ω) α) (fp : ω) :
    Bloscpack.withSink h impl st m fp =
      ((m { fp := fp, header := h, impl := impl, offset_storage := st }).1.map
        (fun a => (a, (m { fp := fp, header := h, impl := impl, offset_storage := st }).2.offset_storage)),
      (m { fp := fp, header := h, impl := impl, offset_storage := st }).2.fp) := by
  unfold Bloscpack.withSink
  generalize m { fp := fp, header := h, impl := impl, offset_storage := st } = q
  obtain ⟨r, s⟩ := q
  cases r <;> rfl

theorem withSink (h : BloscpackHeader) (impl : Hash) (st : List Int) {m : Proc FPSink α} {m' : Proc (FPSinkOf Disk) α} (hm : Sim sinkWorld m m') :
    Sim diskWorld (withSink h impl st m) (withSink h impl st m') := by
  refine ⟨fun t => ?_, fun s hs => ?_⟩
  · rw [withSink_eq]
    exact hm.1 { fp := t, header := h, impl := impl, offset_storage := st }
  · have hh := hm.2 { fp := s, header := h, impl := impl, offset_storage := st } hs
    rw [withSink_eq, withSink_eq]
    rcases hh with ⟨h1, h2, h3, h4⟩ | ⟨h1, h2, h3⟩
    · have e : (m' { fp := s, header := h, impl := impl, offset_storage := st }).2.offset_storage =
          (m { fp := s.fp, header := h, impl := impl, offset_storage := st }).2.offset_storage := congrArg FPSinkOf.offset_storage h3
      refine .inl ⟨h1, ?_, congrArg FPSinkOf.fp h3, h4⟩
      show Except.map _ _ = Except.map _ _
      rw [h2, e]
      rfl
    · refine .inr ⟨h1, ?_, h3⟩
      show Except.map _ _ = _
      rw [h2]
      rfl

theorem appendFrom (E : Env μ) (first : Int → Bytes) (source : Int → Int → Int → Int → List Bytes) (n : Int) (x : AppendArgs) :
    Sim diskWorld (appendFrom E first source n x) (appendFrom E first source n x) := by
  unfold Bloscpack.appendFrom
  refine bind (readBeginning E) fun b => bind (ofExcept _) fun _ => bind (raiseIf _ _) fun _ =>
    bind (ofExcept _) fun _ => bind (ofExcept _) fun _ => bind (ofExcept _) fun _ => bind (seek _) fun _ =>
    bind (readCompressedChunk _) fun _ => bind (ofExcept _) fun d => ?_
  dsimp only
  split
  · unfold squeezeIn
    exact bind (seek _) fun _ => bind (ofExcept _) fun _ => bind (writeCompressedChunk _ _) fun _ =>
      bind (ofExcept _) fun _ => bind (seek _) fun _ => bind (write _) fun _ => pure _
  · unfold growBy
    exact bind (ofExcept _) fun _ => bind (raiseIf _ _) fun _ => bind (seek _) fun _ => bind (ofExcept _) fun _ =>
      bind (writeCompressedChunk _ _) fun _ => bind (withSink _ _ _ (appendLoop _ _ _ _)) fun _ => bind (ofExcept _) fun _ =>
      bind (seek _) fun _ => bind (write _) fun _ => bind (seek _) fun _ =>
      bind (writeOffsets _) fun _ => pure _

theorem rewriteMetadata (E : Env μ) (md : Option μ) (x : RewriteArgs) : Sim diskWorld (rewriteMetadata E md x) (rewriteMetadata E md x) := by
  unfold Bloscpack.rewriteMetadata seekToMetadata rewriteMetadataFp
  exact bind (bind readBloscpackHeader fun _ => bind (raiseIf _ _) fun _ => tell) fun _ =>
    bind tell fun _ => bind (readMetadata E) fun _ => bind (raiseIf _ _) fun _ =>
    bind (ofExcept _) fun _ => bind (seek _) fun _ => bind (writeMetadata _ _ _) fun _ => pure _

/-- a sink that is made for the file and forgotten -/
theorem sinkOn {m : Proc FPSink α} {m' : Proc (FPSinkOf Disk) α} (hm : Sim sinkWorld m m') :
    Sim diskWorld (fun fp => ((m { fp := fp }).1, (m { fp := fp }).2.fp)) (fun s => ((m' { fp := s }).1, (m' { fp := s }).2.fp)) := by
  refine ⟨fun t => hm.1 { fp := t }, fun s hs => ?_⟩
  rcases hm.2 { fp := s } hs with ⟨h1, h2, h3, h4⟩ | ⟨h1, h2, h3⟩
  · exact .inl ⟨h1, h2, congrArg FPSinkOf.fp h3, h4⟩
  · exact .inr ⟨h1, h2, h3⟩

end Sim

/-! ### closing -/

theorem Disk.close_cases (s : Disk) :
    (s.lost ≠ none ∧ Disk.close s = (.error .osError, s)) ∨
    (s.lost = none ∧ ∃ fs, Disk.close s = (.ok (), { s with faults := fs })) ∨
    (s.lost = none ∧ ∃ k t fs, some (k, t) ∈ s.faults ∧
      Disk.close s = (.error .osError, { s with faults := fs, lost := some (arrived s.before s.fp.log k t) })) := by
  obtain ⟨before, fp, faults, lost⟩ := s
  cases lost with
  | some d => exact .inl ⟨nofun, rfl⟩
  | none =>
    right
    match faults with
    | [] => exact .inl ⟨rfl, [], rfl⟩
    | none :: fs => exact .inl ⟨rfl, fs, rfl⟩
    | some (k, t) :: fs => exact .inr ⟨rfl, k, t, fs, by simp, rfl⟩

theorem Disk.close_ok (s : Disk) :
    (∃ s', Disk.close s = (.ok (), s') ∧ s.lost = none ∧ s'.lost = none ∧ s'.fp = s.fp) ∨
    ∃ s', Disk.close s = (.error .osError, s') ∧ s'.lost ≠ none := by
  rcases s.close_cases with ⟨k1, k2⟩ | ⟨k1, fs, k2⟩ | ⟨k1, k, t, fs, -, k2⟩
  · exact .inr ⟨_, k2, k1⟩
  · exact .inl ⟨_, k2, k1, k1, rfl⟩
  · exact .inr ⟨_, k2, nofun⟩

theorem Disk.within_cases {m : Proc FP α} {m' : Proc Disk α} (h : Sim diskWorld m m') (s : Disk) (hs : s.lost = none) :
    ((Disk.within m' s).2.lost = none ∧ (Disk.within m' s).1 = (m s.fp).1 ∧ (Disk.within m' s).2.fp = (m s.fp).2) ∨
    ((Disk.within m' s).2.lost ≠ none ∧ (Disk.within m' s).1 = .error .osError ∧ Disk.Failed s (Disk.within m' s).2 (m s.fp).2) := by
  unfold Disk.within
  rcases h.2 s hs with ⟨h1, h2, h3, h4⟩ | ⟨h1, h2, h3⟩
  · rcases Disk.close_cases (m' s).2 with ⟨g1, -⟩ | ⟨-, fs, g2⟩ | ⟨-, k, t, fs, g1, g2⟩
    · exact absurd h1 g1
    · rw [g2]; exact .inl ⟨h1, h2, h3⟩
    · rw [g2]
      refine .inr ⟨nofun, rfl, k, t, (m s.fp).2.log, [], h4.2 _ g1, (List.append_nil _).symm, ?_⟩
      show some _ = some _
      rw [show (m' s).2.fp = (m s.fp).2 from h3, h4.1]
  · rcases Disk.close_cases (m' s).2 with ⟨-, g2⟩ | ⟨g1, -⟩ | ⟨g1, -⟩
    · rw [g2]; exact .inr ⟨h1, rfl, h3⟩
    · exact absurd g1 h1
    · exact absurd g1 h1

/-! ### what has arrived -/

theorem crashed_replay (d : Bytes) (log rest : List (Nat × Bytes)) : Spec.Crashed d (log ++ rest) (Spec.replay d log) := by
  rcases List.eq_nil_or_concat log with rfl | ⟨init, ⟨p, bs⟩, rfl⟩
  · exact .inl rfl
  · refine .inr ⟨init, p, bs, rest, bs.length, by simp, ?_⟩
    rw [List.concat_eq_append, replay_append, List.take_length]
    rfl

theorem crashed_arrived (d : Bytes) (log rest : List (Nat × Bytes)) (k t : Nat) :
    Spec.Crashed d (log ++ rest) (arrived d log k t) := by
  unfold arrived
  cases h : log[k]? with
  | none => exact crashed_replay d log rest
  | some w =>
    obtain ⟨p, bs⟩ := w
    obtain ⟨hk, he⟩ := List.getElem?_eq_some_iff.1 h
    refine .inr ⟨log.take k, p, bs, log.drop (k + 1) ++ rest, t, ?_, rfl⟩
    rw [← he, ← List.cons_append, ← List.drop_eq_getElem_cons hk, ← List.append_assoc, List.take_append_drop]

theorem stopped_arrived (d : Bytes) (log rest : List (Nat × Bytes)) (k : Nat) :
    Spec.StoppedBetween d (log ++ rest) (arrived d log k 0) := by
  unfold arrived
  cases h : log[k]? with
  | none => exact ⟨log, rest, rfl, rfl⟩
  | some w =>
    obtain ⟨p, bs⟩ := w
    exact ⟨log.take k, log.drop k ++ rest, by rw [← List.append_assoc, List.take_append_drop], by simp [overlay]⟩

theorem Disk.Failed.crashed {s s' : Disk} {t : FP} (h : Disk.Failed s s' t) : Spec.Crashed s.before t.log s'.contents := by
  obtain ⟨k, x, log, rest, -, h2, h3⟩ := h
  rw [Disk.contents, h3, h2]
  exact crashed_arrived _ _ _ _ _

theorem Disk.Failed.stopped {s s' : Disk} {t : FP} (h : Disk.Failed s s' t) (hf : ∀ k x, some (k, x) ∈ s.faults → x = 0) :
    Spec.StoppedBetween s.before t.log s'.contents := by
  obtain ⟨k, x, log, rest, h1, h2, h3⟩ := h
  rw [Disk.contents, h3, h2, hf k x h1]
  exact stopped_arrived _ _ _ _

/-! ### an input that fails -/

/-- `m'` does the same as `m`, or stops earlier with an `OSError` -/
def CutShort (W : Pairing σ σ') (m m' : Proc σ α) : Prop :=
  ∀ t, m' t = m t ∨ ((m' t).1 = .error .osError ∧ W.later (m' t).2 (m t).2)

theorem CutShort.bind {W : Pairing σ σ'} {m : Proc σ α} {f f' : α → Proc σ β} (hf : ∀ a, CutShort W (f a) (f' a)) :
    CutShort W (m >>= f) (m >>= f') := by
  intro t
  rw [Proc.bind_apply, Proc.bind_apply]
  generalize m t = q
  obtain ⟨r, u⟩ := q
  cases r with
  | error e => exact .inl rfl
  | ok a => exact hf a u

theorem CutShort.stop {W : Pairing σ σ'} {m : Proc σ α} {f : α → Proc σ β} (hf : ∀ a t, W.later t (f a t).2) :
    CutShort W (m >>= f) (m >>= fun _ => Proc.raise .osError) :=
  CutShort.bind fun a t => .inr ⟨rfl, hf a t⟩

theorem packLoop_append (E : Env μ) (sink : CompressedSink μ σ) (a : BloscArgs) (i : Nat) (cs ds : List Bytes) :
    packLoop E sink a i (cs ++ ds) = packLoop E sink a i cs >>= fun _ => packLoop E sink a (i + cs.length) ds := by
  induction cs generalizing i with
  | nil => rfl
  | cons c cs ih =>
    simp only [List.cons_append, packLoop, ih, List.length_cons]
    rw [Proc.bind_assoc']
    congr 1
    funext x
    rw [Proc.bind_assoc', show i + 1 + cs.length = i + (cs.length + 1) by omega]

theorem Sim.rest (E : Env μ) (a : BloscArgs) (i : Nat) (cs : List Bytes) (stop : Option Err) (m : MetadataArgs) :
    Sim sinkWorld
      (Bloscpack.packLoop E (compressedFPSink E) a i cs >>= fun _ => match stop with
        | some e => Proc.raise e
        | none => do
          (compressedFPSink E).finalize
          Proc.pure m)
      (Bloscpack.packLoop E (compressedFPSink E) a i cs >>= fun _ => match stop with
        | some e => Proc.raise e
        | none => do
          (compressedFPSink E).finalize
          Proc.pure m) := by
  refine Sim.bind (Sim.packLoop E a _ _) fun _ => ?_
  split
  · exact Sim.raise _
  · exact Sim.bind Sim.finalize fun _ => Sim.pure _

theorem CutShort.pack (E : Env μ) (source : PlainSource) (cut : Nat) (n c l : Int) (md : Option μ) (a : BloscArgs) (b : BloscpackArgs)
    (m : MetadataArgs) :
    CutShort sinkWorld (pack E source (compressedFPSink E) n c l md a b m)
      (pack E (source.failsAfter cut) (compressedFPSink E) n c l md a b m) := by
  unfold Bloscpack.pack
  refine CutShort.bind fun h => CutShort.bind fun _ => CutShort.bind fun _ => CutShort.bind fun m2 => CutShort.bind fun _ => ?_
  by_cases hlt : cut < (source c l n).items.length
  · have e1 : source.failsAfter cut c l n = { items := (source c l n).items.take cut, stop := some .osError } := by
      simp [PlainSource.failsAfter, hlt]
    have e : packLoop E (compressedFPSink E) a 0 (source c l n).items = packLoop E (compressedFPSink E) a 0 ((source c l n).items.take cut) >>= fun _ =>
        packLoop E (compressedFPSink E) a (0 + ((source c l n).items.take cut).length) ((source c l n).items.drop cut) := by
      rw [← packLoop_append, List.take_append_drop]
    simp only [e1]
    rw [e, Proc.bind_assoc']
    refine CutShort.stop fun _ => ?_
    exact (Sim.rest E a _ _ (source c l n).stop m2).1
  · have e1 : source.failsAfter cut c l n = source c l n := by
      simp [PlainSource.failsAfter, hlt]
    rw [e1]
    exact fun t => .inl rfl

theorem appendLoop_append {ω : Type} [Writable ω] (E : Env μ) (a : BloscArgs) (i : Nat) (cs ds : List Bytes) :
    appendLoop (σ := ω) E a i (cs ++ ds) = appendLoop E a i cs >>= fun _ => appendLoop E a (i + cs.length) ds := by
  induction cs generalizing i with
  | nil => rfl
  | cons c cs ih =>
    simp only [List.cons_append, appendLoop, ih, List.length_cons]
    rw [Proc.bind_assoc']
    congr 1
    funext x
    rw [Proc.bind_assoc', show i + 1 + cs.length = i + (cs.length + 1) by omega]

/-- a loop that is cut short, and what comes after it -/
theorem CutShort.loop (E : Env μ) (a : BloscArgs) (h : BloscpackHeader) (impl : Hash) (st : List Int) (ys : List Bytes) (cut : Nat)
    {f : Unit × List Int → Proc FP α} (hf : ∀ a t, FP.Later t (f a t).2) :
    CutShort diskWorld (withSink h impl st (appendLoop E a 0 ys) >>= f)
      (withSink h impl st (appendLoop E a 0 (ys.take cut)) >>= fun _ => Proc.raise .osError) := by
  intro t
  have e : appendLoop (σ := FP) E a 0 ys = appendLoop E a 0 (ys.take cut) >>= fun _ => appendLoop E a (0 + (ys.take cut).length) (ys.drop cut) := by
    rw [← appendLoop_append, List.take_append_drop]
  rw [e, Proc.bind_apply, Proc.bind_apply]
  unfold Bloscpack.withSink
  rw [Proc.bind_apply]
  generalize appendLoop E a 0 (ys.take cut) ({ fp := t, header := h, impl := impl, offset_storage := st } : FPSink) = q
  obtain ⟨r, s⟩ := q
  cases r with
  | error e => exact .inl rfl
  | ok u =>
    refine .inr ⟨rfl, ?_⟩
    have hl := (Sim.appendLoop E a (0 + (ys.take cut).length) (ys.drop cut)).1 s
    simp only
    generalize appendLoop E a (0 + (ys.take cut).length) (ys.drop cut) s = q at hl ⊢
    obtain ⟨r, s'⟩ := q
    cases r with
    | error e => exact hl
    | ok v => exact FP.Later.trans hl (hf _ _)

/-- appending does the same as with an input that works, or stops earlier with an `OSError` -/
theorem CutShort.append (E : Env μ) (new : Bytes) (n : Int) (x : AppendArgs) (cut : Nat) :
    CutShort diskWorld (appendFp E { data := new } n x)
      (appendFromFailing E (fun k => if cut = 0 then .error .osError else .ok (FP.read { data := new } k).1)
        (fun b => PlainSource.failsAfter (plainFPSource (FP.read { data := new } b).2) (cut - 1)) n x) := by
  unfold appendFp appendFrom appendFromFailing
  refine CutShort.bind fun b => CutShort.bind fun impl => CutShort.bind fun _ => CutShort.bind fun a => CutShort.bind fun pos =>
    CutShort.bind fun last => CutShort.bind fun _ => CutShort.bind fun r => CutShort.bind fun d => ?_
  dsimp only
  have hsq : ∀ fill, Sim diskWorld (squeezeIn E b.1 impl last a d fill n) (squeezeIn E b.1 impl last a d fill n) := by
    intro fill
    unfold squeezeIn
    exact .bind (.seek _) fun _ => .bind (.ofExcept _) fun _ => .bind (.writeCompressedChunk _ _) fun _ =>
      .bind (.ofExcept _) fun _ => .bind (.seek _) fun _ => .bind (.write _) fun _ => .pure _
  have hgr : ∀ fill src, Sim diskWorld (growBy E b.1 impl b.2.2.2 pos last a d fill src n (b.1.chunk_size - d.length))
      (growBy E b.1 impl b.2.2.2 pos last a d fill src n (b.1.chunk_size - d.length)) := by
    intro fill src
    unfold growBy
    exact .bind (.ofExcept _) fun _ => .bind (.raiseIf _ _) fun _ => .bind (.seek _) fun _ => .bind (.ofExcept _) fun _ =>
      .bind (.writeCompressedChunk _ _) fun _ => .bind (.withSink _ _ _ (.appendLoop _ _ _ _)) fun _ => .bind (.ofExcept _) fun _ =>
      .bind (.seek _) fun _ => .bind (.write _) fun _ => .bind (.seek _) fun _ => .bind (.writeOffsets _) fun _ => .pure _
  by_cases h0 : cut = 0
  · simp only [h0, if_true]
    split
    · exact fun t => .inr ⟨rfl, (hsq _).1 t⟩
    · exact fun t => .inr ⟨rfl, (hgr _ _).1 t⟩
  · simp only [h0, if_false]
    split
    · exact fun t => .inl rfl
    · show CutShort diskWorld _ (growByFailing E b.1 impl b.2.2.2 pos last a d _ _ n _)
      unfold growBy growByFailing
      refine CutShort.bind fun c => CutShort.bind fun _ => CutShort.bind fun _ => CutShort.bind fun _ => CutShort.bind fun _ => ?_
      by_cases hlt : cut - 1 < ((plainFPSource (FP.read { data := new } (b.1.chunk_size - d.length)).2) c.2.1 c.2.2 c.1).items.length
      · have e1 : PlainSource.failsAfter (plainFPSource (FP.read { data := new } (b.1.chunk_size - d.length)).2) (cut - 1) c.2.1 c.2.2 c.1 =
            { items := ((plainFPSource (FP.read { data := new } (b.1.chunk_size - d.length)).2) c.2.1 c.2.2 c.1).items.take (cut - 1), stop := some .osError } := by
          simp [PlainSource.failsAfter, hlt]
        simp only [e1]
        refine CutShort.loop E a b.1 impl _ _ (cut - 1) fun v => ?_
        exact (Sim.bind (.ofExcept _) fun _ => .bind (.seek _) fun _ => .bind (.write _) fun _ => .bind (.seek _) fun _ => .bind (.writeOffsets _) fun _ => .pure _).1
      · have e1 : PlainSource.failsAfter (plainFPSource (FP.read { data := new } (b.1.chunk_size - d.length)).2) (cut - 1) c.2.1 c.2.2 c.1 =
            plainFPSource (FP.read { data := new } (b.1.chunk_size - d.length)).2 c.2.1 c.2.2 c.1 := by
          simp [PlainSource.failsAfter, hlt]
        simp only [e1]
        exact fun t => .inl rfl

theorem Sim.appendFromFailing (E : Env μ) (first : Int → Except Err Bytes) (source : Int → Int → Int → Int → Yields Bytes) (n : Int) (x : AppendArgs) :
    Sim diskWorld (appendFromFailing E first source n x) (appendFromFailing E first source n x) := by
  unfold Bloscpack.appendFromFailing
  refine bind (readBeginning E) fun b => bind (ofExcept _) fun _ => bind (raiseIf _ _) fun _ =>
    bind (ofExcept _) fun _ => bind (ofExcept _) fun _ => bind (ofExcept _) fun _ => bind (seek _) fun _ =>
    bind (readCompressedChunk _) fun _ => bind (ofExcept _) fun d => ?_
  dsimp only
  split
  · unfold squeezeIn
    exact bind (ofExcept _) fun _ => bind (seek _) fun _ => bind (ofExcept _) fun _ => bind (writeCompressedChunk _ _) fun _ =>
      bind (ofExcept _) fun _ => bind (seek _) fun _ => bind (write _) fun _ => pure _
  · refine bind (ofExcept _) fun _ => ?_
    unfold growByFailing
    refine bind (ofExcept _) fun _ => bind (raiseIf _ _) fun _ => bind (seek _) fun _ => bind (ofExcept _) fun _ =>
      bind (writeCompressedChunk _ _) fun _ => bind (withSink _ _ _ (appendLoop _ _ _ _)) fun _ => ?_
    split
    · exact raise _
    · exact bind (ofExcept _) fun _ => bind (seek _) fun _ => bind (write _) fun _ => bind (seek _) fun _ =>
        bind (writeOffsets _) fun _ => pure _

/-! ### two files -/

def pairWorld : Pairing (FP × FP) (Disk × Disk) where
  view s := (s.1.fp, s.2.fp)
  good s := s.1.lost = none ∧ s.2.lost = none
  kept s s' := diskWorld.kept s.1 s'.1 ∧ diskWorld.kept s.2 s'.2
  later t u := t.2.Later u.2
  after s s' t := ((∃ f, some f ∈ s.1.faults) ∧ s'.2.lost = none ∧ diskWorld.kept s.2 s'.2 ∧ s.2.fp.Later s'.2.fp ∧ s'.2.fp.Later t.2) ∨ Disk.Failed s.2 s'.2 t.2
  kept_refl _ := ⟨diskWorld.kept_refl _, diskWorld.kept_refl _⟩
  kept_trans h h' := ⟨diskWorld.kept_trans h.1 h'.1, diskWorld.kept_trans h.2 h'.2⟩
  later_refl _ := FP.Later.refl _
  later_trans := FP.Later.trans
  after_later h h' := by
    rcases h with ⟨h0, h1, h2, h3, h4⟩ | h
    · exact .inl ⟨h0, h1, h2, h3, h4.trans h'⟩
    · exact .inr (diskWorld.after_later h h')
  kept_after h h' h'' := by
    rcases h'' with ⟨⟨f, h0⟩, h1, h2, h3, h4⟩ | h''
    · exact .inl ⟨⟨f, h.1.2 _ h0⟩, h1, diskWorld.kept_trans h.2 h2, h'.trans h3, h4⟩
    · exact .inr (diskWorld.kept_after h.2 h' h'')

namespace Sim

theorem onFst {m : Proc FP α} {m' : Proc Disk α} (h : Sim diskWorld m m') : Sim pairWorld (Proc.onFst m) (Proc.onFst m') := by
  refine ⟨fun t => .refl _, fun s hs => ?_⟩
  rcases h.2 s.1 hs.1 with ⟨h1, h2, h3, h4⟩ | ⟨h1, h2, h3⟩
  · exact .inl ⟨⟨h1, hs.2⟩, h2, congrArg (·, s.2.fp) h3, h4, diskWorld.kept_refl _⟩
  · refine .inr ⟨fun g => h1 g.1, h2, .inl ⟨?_, hs.2, diskWorld.kept_refl _, .refl _, .refl _⟩⟩
    obtain ⟨k, x, -, -, hm, -⟩ := h3
    exact ⟨_, hm⟩

theorem onSnd {m : Proc FP α} {m' : Proc Disk α} (h : Sim diskWorld m m') : Sim pairWorld (Proc.onSnd m) (Proc.onSnd m') := by
  refine ⟨fun t => h.1 t.2, fun s hs => ?_⟩
  rcases h.2 s.2 hs.2 with ⟨h1, h2, h3, h4⟩ | ⟨h1, h2, h3⟩
  · exact .inl ⟨⟨hs.1, h1⟩, h2, congrArg (s.1.fp, ·) h3, diskWorld.kept_refl _, h4⟩
  · exact .inr ⟨fun g => h1 g.2, h2, .inr h3⟩

theorem unpackLoop (E : Env μ) (h : BloscpackHeader) (impl : Hash) (fuel i : Nat) :
    Sim pairWorld (unpackLoop (compressedFPSource h impl) (plainFPSinkPut E) fuel i)
      (unpackLoop (compressedFPSource h impl) (plainFPSinkPut E) fuel i) := by
  induction fuel generalizing i with
  | zero => exact pure _
  | succ fuel ih =>
    exact bind (onFst (bind (readCompressedChunk impl) fun _ => pure _)) fun _ => bind (ofExcept _) fun _ =>
      bind (onSnd (bind (ofExcept _) fun _ => write _)) fun _ => ih _

/-- unpacking from one file to another, bloscpack/file_io.py:478-510, for all kinds of files -/
def copyOut {ω : Type} [Writable ω] (E : Env μ) : Proc (ω × ω) (Option μ) := do
  let b ← Proc.onFst (Bloscpack.readBeginning E)
  let impl ← Proc.ofExcept (b.1.checksumImpl E)
  unpack (compressedFPSource b.1 impl) (plainFPSinkPut E)
  Proc.pure b.2.1

theorem copyOut_sim (E : Env μ) : Sim pairWorld (copyOut E) (copyOut E) :=
  bind (onFst (readBeginning E)) fun _ => bind (ofExcept _) fun _ => bind (unpackLoop E _ _ _ _) fun _ => pure _

theorem copyOut_eq (E : Env μ) (input : Bytes) :
    unpackFrom E input = ((copyOut E (({ data := input } : FP), ({ data := [] } : FP))).1,
      (copyOut E (({ data := input } : FP), ({ data := [] } : FP))).2.2.data) := by
  unfold unpackFrom unpackFP copyOut
  simp only [Proc.bind_apply, Proc.onFst]
  generalize Bloscpack.readBeginning E ({ data := input } : FP) = q
  obtain ⟨r, fp⟩ := q
  cases r with
  | error e => rfl
  | ok b =>
    obtain ⟨h, md, mh, offs⟩ := b
    simp only [Proc.ofExcept]
    cases h.checksumImpl E with
    | error e => rfl
    | ok impl =>
      simp only
      generalize unpack (compressedFPSource h impl) (plainFPSinkPut E) (fp, ({ data := [] } : FP)) = q
      obtain ⟨r, s⟩ := q
      cases r <;> rfl

/-- unpacking writes one piece after the other -/
theorem unpackLoop_wrote (E : Env μ) (h : BloscpackHeader) (impl : Hash) (fuel i : Nat) (fp : FP) (bss : List Bytes) :
    ∃ more, (Bloscpack.unpackLoop (compressedFPSource h impl) (plainFPSinkPut E) fuel i (fp, wrote [] [] [] bss)).2.2 =
      wrote [] [] [] (bss ++ more) := by
  induction fuel generalizing i fp bss with
  | zero => exact ⟨[], by simp [Bloscpack.unpackLoop, Proc.pure]⟩
  | succ fuel ih =>
    unfold Bloscpack.unpackLoop
    rw [Proc.bind_apply]
    simp only [Proc.onFst]
    generalize (compressedFPSource h impl).next i fp = q
    obtain ⟨r, fp'⟩ := q
    cases r with
    | error e => exact ⟨[], by simp⟩
    | ok cd =>
      simp only [Proc.bind_apply, Proc.ofExcept]
      cases checkDigest (compressedFPSource (σ := FP) h impl).checksumImpl cd.1 cd.2 with
      | error e => exact ⟨[], by simp⟩
      | ok u =>
        simp only [Proc.onSnd, plainFPSinkPut, Proc.bind_apply, Proc.ofExcept]
        cases E.decompress cd.1 with
        | error e => exact ⟨[], by simp⟩
        | ok d =>
          simp only [fpWrite_wrote]
          obtain ⟨more, hm⟩ := ih (i + 1) fp' (bss ++ [d])
          exact ⟨d :: more, by rw [hm]; simp⟩

theorem copyOut_wrote (E : Env μ) (input : Bytes) :
    ∃ bss, (copyOut E (({ data := input } : FP), ({ data := [] } : FP))).2.2 = wrote [] [] [] bss := by
  have h0 : ({ data := [] } : FP) = wrote [] [] [] [] := rfl
  rw [h0]
  unfold copyOut
  simp only [Proc.bind_apply, Proc.onFst]
  generalize Bloscpack.readBeginning E ({ data := input } : FP) = q
  obtain ⟨r, fp⟩ := q
  cases r with
  | error e => exact ⟨[], rfl⟩
  | ok b =>
    simp only [Proc.ofExcept]
    cases b.1.checksumImpl E with
    | error e => exact ⟨[], rfl⟩
    | ok impl =>
      simp only
      obtain ⟨more, hm⟩ := unpackLoop_wrote E b.1 impl (compressedFPSource (σ := FP) b.1 impl).nchunks.toNat 0 fp []
      unfold unpack
      generalize Bloscpack.unpackLoop (compressedFPSource b.1 impl) (plainFPSinkPut E) (compressedFPSource (σ := FP) b.1 impl).nchunks.toNat 0
        (fp, wrote [] [] [] []) = q at hm ⊢
      obtain ⟨r, s⟩ := q
      cases r <;> exact ⟨_, hm⟩

end Sim

end Bloscpack
