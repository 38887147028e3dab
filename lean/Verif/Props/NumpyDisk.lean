import Verif.Model.NumpyDisk
import Verif.Props.Disk
import Verif.Props.Numpy
/-
C107: arrays, interruptions and disks that fail.
-/
namespace Bloscpack

/-! ### packing -/

/-- a source that stops at once, whatever the exception -/
theorem pack_stops {μ σ : Type} (E : Env μ) (source : PlainSource) (sink : CompressedSink μ σ) (n c l : Int) (md : Option μ) (a : BloscArgs)
    (b : BloscpackArgs) (m : MetadataArgs) (e e' : Err) (s : σ) (source' : PlainSource) (h : source c l n = ⟨[], some e⟩) (h' : source' c l n = ⟨[], some e'⟩) :
    (pack E source sink n c l md a b m s).2 = (pack E source' sink n c l md a b m s).2 := by
  unfold pack
  rw [h, h']
  simp only [Proc.bind_apply]
  repeat' (first | rfl | split)

/-- packing an array writes what packing its buffer would write, or the beginning of it -/
theorem packNdarray_log (E : Env Json) (lib : NumpyLib) (a : NdArray) (alloc : Int) (cs : ChunkSizeArg) (blosc : BloscArgs) (b : BloscpackArgs)
    (m : MetadataArgs) (r : Except Err (BloscArgs × MetadataArgs)) (s : FPSink)
    (h : packNdarray E lib a alloc (compressedFPSink E) cs blosc b m { fp := { data := [] } } = (r, s)) :
    ((∃ e, r = .error e) ∧ s.fp = { data := [] }) ∨
    ∃ md r' fp, ndarrayMeta lib a = .ok md ∧ packBytes E (sourceBuffer a alloc) cs (some md) { blosc with typesize := a.itemsize } b m = (r', some fp) ∧
      s.fp.Later fp ∧ (r.toBool = true → s.fp = fp ∧ r'.toBool = true) ∧
      (s.fp = fp ∨ ∃ n c l, calculateNchunks ((prodShape a.shape * a.itemsize : Nat) : Int) cs = .ok (n, c, l) ∧ (a.itemsize = 0 ∨ c % a.itemsize ≠ 0)) := by
  have hitem : (sourceArray a alloc).itemsize = a.itemsize := by unfold sourceArray; split <;> rfl
  have hlen : (sourceBuffer a alloc).length = prodShape a.shape * a.itemsize := by simp [sourceBuffer]
  unfold packNdarray at h
  cases ho : a.dtype.hasObject with
  | true =>
    rw [Proc.bind_of_error (e := .objectNumpyArrayRejection) (s' := { fp := { data := [] } }) (by simp [Proc.raiseIf, Proc.raise, ho])] at h
    cases h
    exact .inl ⟨⟨_, rfl⟩, rfl⟩
  | false =>
    rw [Proc.bind_of_ok (a := ()) (s' := { fp := { data := [] } }) (by simp [Proc.raiseIf, Proc.pure, ho])] at h
    cases hmd : ndarrayMeta lib a with
    | error e =>
      rw [hmd, Proc.bind_of_error (Proc.ofExcept_apply _ _)] at h
      cases h
      exact .inl ⟨⟨_, rfl⟩, rfl⟩
    | ok md =>
      rw [hmd, Proc.bind_of_ok (Proc.ofExcept_apply _ _)] at h
      cases hc : calculateNchunks ((prodShape a.shape * a.itemsize : Nat) : Int) cs with
      | error e =>
        rw [hc, Proc.bind_of_error (Proc.ofExcept_apply _ _)] at h
        cases h
        exact .inl ⟨⟨_, rfl⟩, rfl⟩
      | ok q =>
        obtain ⟨n, c, l⟩ := q
        rw [hc, Proc.bind_of_ok (Proc.ofExcept_apply _ _)] at h
        simp only at h
        refine .inr ⟨md, _, _, rfl, by rw [packBytes, hlen, hc], ?_⟩
        cases hp : numpyPairs (sourceArray a alloc).ptr a.itemsize c l n with
        | error e =>
          have hs : plainNumpySource (sourceArray a alloc) c l n = ⟨[], some e⟩ := by
            unfold plainNumpySource; rw [hitem, hp]
          have hne : 0 < ((plainFPSource { data := sourceBuffer a alloc }) c l n).items.length := by
            have : ∀ (ns : List Int) (f : FP), (readMany ns f).1.length = ns.length := by
              intro ns
              induction ns with
              | nil => intro f; rfl
              | cons x xs ih => intro f; simp [readMany, ih]
            simp [plainFPSource, this]
          have hs' : PlainSource.failsAfter (plainFPSource { data := sourceBuffer a alloc }) 0 c l n = ⟨[], some .osError⟩ := by
            simp [PlainSource.failsAfter, hne]
          have h2 := pack_stops E _ (compressedFPSink E) n c l (some md) { blosc with typesize := a.itemsize } b m _ _ ({ fp := { data := [] } } : FPSink) _ hs hs'
          obtain ⟨-, h3⟩ := pack_stop E _ (plainFPSource { data := sourceBuffer a alloc }) (compressedFPSink E) n c l (some md) { blosc with typesize := a.itemsize } b m
            ({ fp := { data := [] } } : FPSink) e hs
          have hcut := CutShort.pack E (plainFPSource { data := sourceBuffer a alloc }) 0 n c l (some md) { blosc with typesize := a.itemsize } b m { fp := { data := [] } }
          generalize hq : pack E (plainNumpySource (sourceArray a alloc)) (compressedFPSink E) n c l (some md) { blosc with typesize := a.itemsize } b m
            ({ fp := { data := [] } } : FPSink) = q at h h2 h3
          obtain ⟨x, s'⟩ := q
          cases x with
          | ok m' => exact absurd rfl (h3 m' s')
          | error e' =>
            rw [Proc.bind_of_error hq] at h
            cases h
            have hbad : a.itemsize = 0 ∨ c % a.itemsize ≠ 0 := by
              unfold numpyPairs at hp
              split at hp
              · rename_i h0; exact .inl h0
              · split at hp
                · rename_i h0; exact .inr h0
                · cases hp
            refine ⟨?_, nofun, .inr ⟨n, c, l, rfl, hbad⟩⟩
            simp only at h2
            rw [h2]
            rcases hcut with hcut | ⟨-, hcut⟩
            · rw [hcut]; exact .refl _
            · exact hcut
        | ok ps =>
          have hs := numpySource_eq (sourceArray a alloc) (prodShape a.shape) cs n c l ps (by rw [hitem]; exact hc) (by rw [hitem]; exact hp)
          rw [hitem] at hs
          have hpk : pack E (plainNumpySource (sourceArray a alloc)) (compressedFPSink (σ := FP) E) n c l (some md) { blosc with typesize := a.itemsize } b m =
              pack E (plainFPSource { data := sourceBuffer a alloc }) (compressedFPSink E) n c l (some md) { blosc with typesize := a.itemsize } b m := by
            unfold pack
            rw [hs]
            rfl
          rw [hpk] at h
          generalize hq : pack E (plainFPSource { data := sourceBuffer a alloc }) (compressedFPSink E) n c l (some md) { blosc with typesize := a.itemsize } b m
            ({ fp := { data := [] } } : FPSink) = q at h ⊢
          obtain ⟨x, s'⟩ := q
          cases x with
          | error e' => rw [Proc.bind_of_error hq] at h; cases h; exact ⟨.refl _, nofun, .inl rfl⟩
          | ok m' => rw [Proc.bind_of_ok hq] at h; cases h; exact ⟨.refl _, fun _ => ⟨rfl, rfl⟩, .inl rfl⟩

theorem crashed_append {d0 d : Bytes} {log rest : List (Nat × Bytes)} (h : Spec.Crashed d0 log d) : Spec.Crashed d0 (log ++ rest) d := by
  rcases h with h | ⟨pre, p, bs, post, t, rfl, h⟩
  · exact .inl h
  · exact .inr ⟨pre, p, bs, post ++ rest, t, by simp, h⟩

/-- what can be unpacked from the file is the array's buffer, and its description -/
theorem packNdarray_crash (E : Env Json) (L : E.Laws) (lib : NumpyLib) (a : NdArray) (alloc : Int) (cs : ChunkSizeArg) (blosc : BloscArgs)
    (b : BloscpackArgs) (m : MetadataArgs) (r : Except Err (BloscArgs × MetadataArgs)) (s : FPSink)
    (h : packNdarray E lib a alloc (compressedFPSink E) cs blosc b m { fp := { data := [] } } = (r, s)) (d : Bytes) (hc : Spec.Crashed [] s.fp.log d) :
    (∃ e, unpackBytesFromBytes E d = .error e) ∨ ∃ md, ndarrayMeta lib a = .ok md ∧ unpackBytesFromBytes E d = .ok (sourceBuffer a alloc, some md) := by
  rcases packNdarray_log E lib a alloc cs blosc b m r s h with ⟨-, h2⟩ | ⟨md, r', fp, h1, h2, ⟨w, h3, -⟩, -, -⟩
  · rw [h2] at hc
    have : d = [] := by
      rcases hc with rfl | ⟨pre, p, bs, post, t, h5, -⟩
      · rfl
      · simp at h5
    subst this
    exact .inl ⟨_, (C45_not_bloscpack E _ (.inl (by decide))).1⟩
  · refine (C26_interrupted_pack E L _ cs (some md) _ b m r' fp h2 d ?_).imp id fun g => ⟨md, h1, g⟩
    rw [h3]
    exact crashed_append hc

/-- an array that is read is the one that was packed, if the bytes are -/
theorem unpackNdarray_sound (E : Env Json) (lib : NumpyLib) (a : NdArray) (alloc : Int) (hs : a.strides.length = a.shape.length)
    (hg : Spec.GapFree a.dtype) (hk : Spec.Known lib a.dtype) (d : Bytes)
    (h : (∃ e, unpackBytesFromBytes E d = .error e) ∨ ∃ md, ndarrayMeta lib a = .ok md ∧ unpackBytesFromBytes E d = .ok (sourceBuffer a alloc, some md))
    (fp : FP) (hfp : fp = { data := d } ∨ fp = { data := d, inMemory := true }) (alloc' : Int) (mem : Int → UInt8) :
    (∃ e, (unpackNdarray E lib fp alloc' mem).1 = .error e) ∨ ∃ u, (unpackNdarray E lib fp alloc' mem).1 = .ok u ∧ Spec.SameArray a u := by
  have hu : (∃ e o, unpackFP E fp = (.error e, o)) ∨ ∃ md, ndarrayMeta lib a = .ok md ∧ unpackFP E fp = (.ok (some md), sourceBuffer a alloc) := by
    have hmem : ∀ md o, unpackFP E { data := d, inMemory := true } = (.ok md, o) → unpackBytesFromBytes E d = .ok (o, md) := by
      intro md o hq; unfold unpackBytesFromBytes; rw [hq]
    have hok : ∀ md o, unpackFP E fp = (.ok md, o) → unpackBytesFromBytes E d = .ok (o, md) := by
      intro md o hq
      rcases hfp with rfl | rfl
      · exact unpackBytes_ok hq
      · exact hmem md o hq
    generalize unpackFP E fp = q at hok ⊢
    obtain ⟨x, o⟩ := q
    cases x with
    | error e => exact .inl ⟨e, o, rfl⟩
    | ok md =>
      have := hok md o rfl
      rcases h with ⟨e, h⟩ | ⟨md', h1, h⟩
      · rw [this] at h; cases h
      · rw [this] at h; cases h; exact .inr ⟨md', h1, rfl⟩
  rcases hu with ⟨e, o, hu⟩ | ⟨md, hmd, hu⟩
  · left
    rcases unpackNdarray_fp E lib fp alloc' mem with ⟨e', -, h2⟩ | ⟨md, ⟨e', -, h2⟩ | ⟨x, -, h2⟩, -⟩
    · exact ⟨e', by rw [h2]⟩
    · exact ⟨e', by rw [h2]⟩
    · exact ⟨e, by rw [h2, hu]; rfl⟩
  · right
    rw [unpackNdarray_meta_fp E lib a hg hk md hmd fp _ hu alloc' mem]
    exact ⟨_, rfl, rfl, rfl, fun idx hi => sourceBuffer_item a alloc alloc' mem hs idx hi⟩

/-- C107, interruptions: whenever packing an array to a file is interrupted, in the middle of whichever write, reading the file back as an array
raises or gives the array that was being packed: its dtype, its shape and its elements. -/
theorem C107_interrupted (E : Env Json) (L : E.Laws) (lib : NumpyLib) (a : NdArray) (alloc : Int) (cs : ChunkSizeArg) (blosc : BloscArgs)
    (b : BloscpackArgs) (m : MetadataArgs) (hs : a.strides.length = a.shape.length) (hg : Spec.GapFree a.dtype) (hk : Spec.Known lib a.dtype)
    (r : Except Err (BloscArgs × MetadataArgs)) (s : FPSink)
    (h : packNdarray E lib a alloc (compressedFPSink E) cs blosc b m { fp := { data := [] } } = (r, s)) (d : Bytes) (hc : Spec.Crashed [] s.fp.log d)
    (fp : FP) (hfp : fp = { data := d } ∨ fp = { data := d, inMemory := true }) (alloc' : Int) (mem : Int → UInt8) :
    (∃ e, (unpackNdarray E lib fp alloc' mem).1 = .error e) ∨ ∃ u, (unpackNdarray E lib fp alloc' mem).1 = .ok u ∧ Spec.SameArray a u :=
  unpackNdarray_sound E lib a alloc hs hg hk d (packNdarray_crash E L lib a alloc cs blosc b m r s h d hc) fp hfp alloc' mem

theorem Sim.packNdarray (E : Env Json) (lib : NumpyLib) (a : NdArray) (alloc : Int) (cs : ChunkSizeArg) (blosc : BloscArgs) (b : BloscpackArgs)
    (m : MetadataArgs) :
    Sim sinkWorld (packNdarray E lib a alloc (compressedFPSink E) cs blosc b m) (packNdarray E lib a alloc (compressedFPSink E) cs blosc b m) := by
  unfold Bloscpack.packNdarray
  exact bind (raiseIf _ _) fun _ => bind (ofExcept _) fun _ => bind (ofExcept _) fun _ => bind (pack _ _ _ _ _ _ _ _ _) fun _ => pure _

/-- The writes recorded for a run are what the file of `pack_ndarray_to_file` consists of, whatever the outcome. -/
theorem C107_writes (E : Env Json) (lib : NumpyLib) (fs : FS) (a : NdArray) (alloc : Int) (filename : String) (cs : ChunkSizeArg)
    (blosc : BloscArgs) (b : BloscpackArgs) (m : MetadataArgs) (hw : fs.canWrite filename = true) :
    ∃ r s, packNdarray E lib a alloc (compressedFPSink E) cs blosc b m { fp := { data := [] } } = (r, s) ∧
      (packNdarrayToFile E lib fs a alloc filename cs blosc b m).1 = r ∧
      (packNdarrayToFile E lib fs a alloc filename cs blosc b m).2.files filename = some (Spec.replay [] s.fp.log) := by
  obtain ⟨w, h1, h2⟩ := (Sim.packNdarray E lib a alloc cs blosc b m).1 ({ fp := { data := [] } } : FPSink)
  unfold packNdarrayToFile FS.openWrite
  generalize Bloscpack.packNdarray E lib a alloc (compressedFPSink E) cs blosc b m ({ fp := { data := [] } } : FPSink) = q at *
  obtain ⟨r, s⟩ := q
  have h1 : s.fp.log = w := h1
  refine ⟨r, s, rfl, ?_⟩
  simp only [hw, if_true, true_and]
  simp only [FS.put, if_true]
  rw [h1, ← show s.fp.data = Spec.replay [] w from h2]

/-- C107, failing disks: when an operation on the output fails, packing an array raises `OSError`; if it says that it succeeded, the file holds
the array; and however it ends, reading the file back raises or gives the array. -/
theorem C107_pack (E : Env Json) (L : E.Laws) (lib : NumpyLib) (a : NdArray) (alloc : Int) (cs : ChunkSizeArg) (blosc : BloscArgs)
    (b : BloscpackArgs) (m : MetadataArgs) (hs : a.strides.length = a.shape.length) (hg : Spec.GapFree a.dtype) (hk : Spec.Known lib a.dtype)
    (faults : List (Option (Nat × Nat))) (r : Except Err (BloscArgs × MetadataArgs)) (disk : Disk)
    (h : packNdarrayDisk E lib a alloc cs blosc b m faults = (r, disk)) (alloc' : Int) (mem : Int → UInt8) :
    (disk.lost ≠ none → r = .error .osError) ∧
    (r.toBool = true → ∃ u, (unpackNdarray E lib { data := disk.contents } alloc' mem).1 = .ok u ∧ Spec.SameArray a u) ∧
    ((∃ e, (unpackNdarray E lib { data := disk.contents } alloc' mem).1 = .error e) ∨
      ∃ u, (unpackNdarray E lib { data := disk.contents } alloc' mem).1 = .ok u ∧ Spec.SameArray a u) ∧
    ((∀ f ∈ faults, f = none) → ∃ s, packNdarray E lib a alloc (compressedFPSink E) cs blosc b m { fp := { data := [] } } = (r, s) ∧ disk.contents = s.fp.data) := by
  have hw := Disk.within_cases (Sim.sinkOn (Sim.packNdarray E lib a alloc cs blosc b m)) (Disk.opened [] faults) rfl
  change (_ ∧ _ = (Bloscpack.packNdarray E lib a alloc (compressedFPSink E) cs blosc b m ({ fp := { data := [] } } : FPSink)).1 ∧
    _ = (Bloscpack.packNdarray E lib a alloc (compressedFPSink E) cs blosc b m ({ fp := { data := [] } } : FPSink)).2.fp) ∨
    _ ∧ _ ∧ Disk.Failed _ _ (Bloscpack.packNdarray E lib a alloc (compressedFPSink E) cs blosc b m ({ fp := { data := [] } } : FPSink)).2.fp at hw
  generalize hq : Bloscpack.packNdarray E lib a alloc (compressedFPSink E) cs blosc b m ({ fp := { data := [] } } : FPSink) = q at hw
  obtain ⟨x, s⟩ := q
  have hlater := (Sim.packNdarray E lib a alloc cs blosc b m).1 ({ fp := { data := [] } } : FPSink)
  rw [hq] at hlater
  obtain ⟨w, hl1, hl2⟩ := hlater
  have hl1 : s.fp.log = w := hl1
  have hl2 : s.fp.data = Spec.replay [] w := hl2
  change (((packNdarrayDisk E lib a alloc cs blosc b m faults).2.lost = none) ∧ (packNdarrayDisk E lib a alloc cs blosc b m faults).1 = x ∧
    (packNdarrayDisk E lib a alloc cs blosc b m faults).2.fp = s.fp) ∨ (packNdarrayDisk E lib a alloc cs blosc b m faults).2.lost ≠ none ∧
    (packNdarrayDisk E lib a alloc cs blosc b m faults).1 = .error .osError ∧
    Disk.Failed _ (packNdarrayDisk E lib a alloc cs blosc b m faults).2 s.fp at hw
  rw [h] at hw
  have hread := fun d hc => C107_interrupted E L lib a alloc cs blosc b m hs hg hk x s hq d hc { data := d } (.inl rfl) alloc' mem
  rcases hw with ⟨h1, h2, h3⟩ | ⟨h1, h2, h3⟩
  · simp only at h1 h2 h3
    have hcont : disk.contents = s.fp.data := by rw [Disk.contents, h1, Option.getD_none, h3]
    refine ⟨fun g => absurd h1 g, fun hr => ?_, ?_, fun _ => ⟨s, by rw [h2], hcont⟩⟩
    · have hb : packNdarrayToBytes E lib a alloc cs blosc b m = .ok s.fp.data := by
        unfold packNdarrayToBytes
        rw [hq]
        subst h2
        cases r with
        | error e => cases hr
        | ok v => rfl
      obtain ⟨md, hmd, hu⟩ := packNdarray_ok L hb
      rw [hcont, unpackNdarray_meta_fp E lib a hg hk md hmd { data := s.fp.data } _ hu alloc' mem]
      exact ⟨_, rfl, rfl, rfl, fun idx hi => sourceBuffer_item a alloc alloc' mem hs idx hi⟩
    · rw [hcont]
      refine hread _ ?_
      rw [hl1, hl2]
      simpa using crashed_replay [] w []
  · simp only at h1 h2 h3
    subst h2
    refine ⟨fun _ => rfl, nofun, hread _ h3.crashed, fun hf => ?_⟩
    obtain ⟨k, y, -, -, hm, -⟩ := h3
    cases hf _ hm

/-! ### reading -/

/-- the memory in `t` can come after the one in `s`: more of the array has been filled -/
def Filled (s t : (Int → UInt8) × Int) : Prop := ∃ w : Bytes, t = (writeMem s.1 s.2 w, s.2 + w.length)

theorem Filled.refl (s : (Int → UInt8) × Int) : Filled s s := ⟨[], by simp [writeMem_nil]⟩
theorem Filled.trans {s t u : (Int → UInt8) × Int} (h : Filled s t) (h' : Filled t u) : Filled s u := by
  obtain ⟨w, rfl⟩ := h
  obtain ⟨w', rfl⟩ := h'
  exact ⟨w ++ w', by simp [writeMem_append, Int.add_assoc]⟩

/-- a file that is read, and the memory of the array that is filled -/
def arrayWorld : Pairing (FP × ((Int → UInt8) × Int)) (Disk × ((Int → UInt8) × Int)) where
  view s := (s.1.fp, s.2)
  good s := s.1.lost = none
  kept s s' := diskWorld.kept s.1 s'.1
  later t u := Filled t.2 u.2
  after s s' t := (∃ f, some f ∈ s.1.faults) ∧ Filled s.2 s'.2 ∧ Filled s'.2 t.2
  kept_refl _ := diskWorld.kept_refl _
  kept_trans h h' := diskWorld.kept_trans h h'
  later_refl _ := Filled.refl _
  later_trans := Filled.trans
  after_later h h' := ⟨h.1, h.2.1, h.2.2.trans h'⟩
  kept_after := by
    rintro s s1 s2 t h h' ⟨⟨f, hf⟩, h1, h2⟩
    exact ⟨⟨f, h.2 _ hf⟩, Filled.trans h' h1, h2⟩

namespace Sim

theorem arrayFile {α : Type} {m : Proc FP α} {m' : Proc Disk α} (h : Sim diskWorld m m') : Sim arrayWorld (Proc.onFst m) (Proc.onFst m') := by
  refine ⟨fun t => Filled.refl _, fun s hs => ?_⟩
  rcases h.2 s.1 hs with ⟨h1, h2, h3, h4⟩ | ⟨h1, h2, h3⟩
  · exact .inl ⟨h1, h2, congrArg (·, s.2) h3, h4⟩
  · obtain ⟨k, x, -, -, hm, -⟩ := h3
    exact .inr ⟨h1, h2, ⟨_, hm⟩, .refl _, .refl _⟩

theorem arrayMemory {α : Type} {m : Proc ((Int → UInt8) × Int) α} (h : ∀ t, Filled t (m t).2) : Sim arrayWorld (Proc.onSnd m) (Proc.onSnd m) :=
  ⟨fun t => h t.2, fun s hs => .inl ⟨hs, rfl, rfl, diskWorld.kept_refl _⟩⟩

theorem numpySinkPut (E : Env Json) (c : Bytes) (t : (Int → UInt8) × Int) : Filled t (numpySinkPut E c t).2 := by
  unfold Bloscpack.numpySinkPut
  rw [Proc.bind_apply]
  simp only [Proc.ofExcept]
  cases E.decompress c with
  | error e => exact .refl _
  | ok d => exact ⟨d, rfl⟩

theorem arrayLoop (E : Env Json) (h : BloscpackHeader) (impl : Hash) (fuel i : Nat) :
    Sim arrayWorld (Bloscpack.unpackLoop (compressedFPSource h impl) (Bloscpack.numpySinkPut E) fuel i)
      (Bloscpack.unpackLoop (compressedFPSource h impl) (Bloscpack.numpySinkPut E) fuel i) := by
  induction fuel generalizing i with
  | zero => exact pure _
  | succ fuel ih =>
    exact bind (arrayFile (bind (readCompressedChunk impl) fun _ => pure _)) fun _ => bind (ofExcept _) fun _ =>
      bind (arrayMemory (numpySinkPut E _)) fun _ => ih _

theorem unpackNdarrayWith (E : Env Json) (lib : NumpyLib) (alloc : Int) (mem : Int → UInt8) :
    Sim arrayWorld (unpackNdarrayWith E lib alloc mem) (unpackNdarrayWith E lib alloc mem) := by
  unfold Bloscpack.unpackNdarrayWith
  refine bind (arrayFile (readBeginning E)) fun _ => bind (ofExcept _) fun _ => bind (ofExcept _) fun a => bind (arrayLoop E _ _ _ _) fun _ => ?_
  exact ⟨fun t => Filled.refl _, fun s hs => .inl ⟨hs, rfl, rfl, diskWorld.kept_refl _⟩⟩

end Sim

/-- the two ways of writing down `unpack_ndarray` -/
theorem unpackNdarrayWith_eq (E : Env Json) (lib : NumpyLib) (input : FP) (alloc : Int) (mem : Int → UInt8) :
    unpackNdarray E lib input alloc mem =
      ((unpackNdarrayWith E lib alloc mem (input, (mem, alloc))).1, (unpackNdarrayWith E lib alloc mem (input, (mem, alloc))).2.2.1) := by
  unfold unpackNdarray unpackNdarrayWith
  simp only [Proc.bind_apply, Proc.onFst]
  generalize readBeginning E input = q
  obtain ⟨r, fp⟩ := q
  cases r with
  | error e => rfl
  | ok b =>
    obtain ⟨h, md, mh, offs⟩ := b
    simp only [Proc.ofExcept]
    cases h.checksumImpl E with
    | error e => rfl
    | ok impl =>
      simp only
      cases plainNumpySink lib md alloc mem with
      | error e => rfl
      | ok a =>
        simp only
        generalize unpack (compressedFPSource h impl) (numpySinkPut E) (fp, (mem, alloc)) = q
        obtain ⟨r, s⟩ := q
        cases r <;> rfl

/-- C107, reading: when an operation on the file fails, reading an array raises `OSError` (no half-filled array is returned), and of the memory a
beginning of the new array has been filled with what would have been there. Otherwise nothing is different from a disk that works. -/
theorem C107_unpack (E : Env Json) (lib : NumpyLib) (input : Bytes) (faults : List (Option (Nat × Nat))) (alloc : Int) (mem : Int → UInt8)
    (r : Except Err NdArray) (mem' : Int → UInt8) (disk : Disk) (h : unpackNdarrayDisk E lib input faults alloc mem = (r, mem', disk)) :
    (disk.lost = none ∧ (r, mem') = unpackNdarray E lib { data := input } alloc mem) ∨
    (disk.lost ≠ none ∧ r = .error .osError ∧ (∃ f, some f ∈ faults) ∧
      ∃ k : Nat, ∀ x, mem' x = if alloc ≤ x ∧ x < alloc + k then (unpackNdarray E lib { data := input } alloc mem).2 x else mem x) := by
  rw [unpackNdarrayWith_eq]
  have hs := (Sim.unpackNdarrayWith E lib alloc mem).2 (Disk.opened input faults, (mem, alloc)) rfl
  change (_ ∧ _ = (unpackNdarrayWith E lib alloc mem (({ data := input } : FP), (mem, alloc))).1 ∧
    _ = (unpackNdarrayWith E lib alloc mem (({ data := input } : FP), (mem, alloc))).2 ∧ _) ∨
    _ ∧ _ ∧ arrayWorld.after _ _ (unpackNdarrayWith E lib alloc mem (({ data := input } : FP), (mem, alloc))).2 at hs
  have hfill := (Sim.unpackNdarrayWith E lib alloc mem).1 (({ data := input } : FP), (mem, alloc))
  generalize unpackNdarrayWith E lib alloc mem (({ data := input } : FP), (mem, alloc)) = q at hs hfill ⊢
  obtain ⟨x, f, t⟩ := q
  unfold unpackNdarrayDisk at h
  simp only at h
  generalize unpackNdarrayWith E lib alloc mem (Disk.opened input faults, (mem, alloc)) = q' at hs h
  obtain ⟨x', d1, t'⟩ := q'
  simp only at hs h
  have key : ∀ {t' : (Int → UInt8) × Int}, Filled (mem, alloc) t' → Filled t' t →
      ∃ k : Nat, ∀ x, t'.1 x = if alloc ≤ x ∧ x < alloc + k then t.1 x else mem x := by
    rintro t' ⟨w, rfl⟩ ⟨w', rfl⟩
    refine ⟨w.length, fun x => ?_⟩
    simp only
    split
    · rename_i hx
      exact (writeMem_outside _ _ _ _ (by omega)).symm
    · rename_i hx
      exact writeMem_outside _ _ _ _ hx
  rcases hs with ⟨g1, g2, g3, g4⟩ | ⟨g1, g2, g3, g4, g5⟩
  · have g3' : t' = t := congrArg Prod.snd g3
    subst g2 g3'
    rcases d1.close_cases with ⟨k1, -⟩ | ⟨-, fs, k2⟩ | ⟨-, k, y, fs, k1, k2⟩
    · exact absurd g1 k1
    · rw [k2] at h
      cases h
      exact .inl ⟨g1, rfl⟩
    · rw [k2] at h
      cases h
      exact .inr ⟨nofun, rfl, ⟨_, g4.2 _ k1⟩, key hfill (.refl _)⟩
  · have g1 : d1.lost ≠ none := g1
    rcases d1.close_cases with ⟨k1, k2⟩ | ⟨k1, -⟩ | ⟨k1, -⟩
    · rw [k2] at h
      cases h
      exact .inr ⟨g1, rfl, g3, key g4 g5⟩
    · exact absurd k1 g1
    · exact absurd k1 g1

/-- C107, reading: an array read from a file that was packed is the array that was packed, or reading raises `OSError`; no memory is touched
outside the new array. -/
theorem C107_unpack_safe (E : Env Json) (L : E.Laws) (lib : NumpyLib) (a : NdArray) (alloc : Int) (cs : ChunkSizeArg) (blosc : BloscArgs)
    (b : BloscpackArgs) (m : MetadataArgs) (out : Bytes) (hs : a.strides.length = a.shape.length)
    (hg : Spec.GapFree a.dtype) (hk : Spec.Known lib a.dtype) (hp : packNdarrayToBytes E lib a alloc cs blosc b m = .ok out)
    (faults : List (Option (Nat × Nat))) (alloc' : Int) (mem : Int → UInt8) (r : Except Err NdArray) (mem' : Int → UInt8) (disk : Disk)
    (h : unpackNdarrayDisk E lib out faults alloc' mem = (r, mem', disk)) :
    ((∃ u, r = .ok u ∧ Spec.SameArray a u) ∨ (r = .error .osError ∧ ∃ f, some f ∈ faults)) ∧
    ∀ x, ¬ (alloc' ≤ x ∧ x < alloc' + (prodShape a.shape * a.itemsize : Nat)) → mem' x = mem x := by
  obtain ⟨md, hmd, hu⟩ := packNdarray_ok L hp
  have hlen : (sourceBuffer a alloc).length = prodShape a.shape * a.itemsize := by simp [sourceBuffer]
  have hr := unpackNdarray_meta_fp E lib a hg hk md hmd { data := out } _ hu alloc' mem
  rcases C107_unpack E lib out faults alloc' mem r mem' disk h with ⟨-, h2⟩ | ⟨-, h2, h3, k, h4⟩
  · rw [hr] at h2
    cases h2
    exact ⟨.inl ⟨_, rfl, rfl, rfl, fun idx hi => sourceBuffer_item a alloc alloc' mem hs idx hi⟩,
      fun x hx => writeMem_outside _ _ _ _ (by rw [hlen]; exact hx)⟩
  · refine ⟨.inr ⟨h2, h3⟩, fun x hx => ?_⟩
    rw [h4, hr]
    split
    · exact writeMem_outside _ _ _ _ (by rw [hlen]; exact hx)
    · rfl

/-! ### examples -/

namespace NumpyDiskExamples

/-- packing the strided array in three chunks, and what is read back: did packing succeed, has the disk failed, element (1, 2) -/
def seePack (faults : List (Option (Nat × Nat))) : Bool × Bool × Option Bytes :=
  let r := packNdarrayDisk Toy.jsonEnv Toy.numpy Toy.view 300 (.int 8) {} { max_app_chunks := .int 1 } { meta_codec := "None", max_meta_size := .int 200 } faults
  (r.1.toBool, r.2.lost.isSome, ((unpackNdarray Toy.jsonEnv Toy.numpy { data := r.2.contents } 1000 (fun _ => 0)).1.map fun u => u.item [1, 2]).toOption)

-- the array fulfils the conditions of the theorems (`Toy.view_known`); packing works
example : seePack [] = (true, false, some [116, 117, 118, 119]) := by decide +kernel
-- the fourth operation fails; so does closing the file, when all but the end of the last write has arrived
example : seePack [none, none, none, some (2, 1)] = (false, true, none) := by decide +kernel
example : seePack (List.replicate 150 none ++ [some (149, 2)]) = (false, true, some [116, 117, 118, 119]) := by decide +kernel

/-- reading the strided array: does it succeed, has the disk failed, and the memory around the beginning of the new array -/
def seeUnpack (faults : List (Option (Nat × Nat))) : Bool × Bool × Bytes :=
  let r := unpackNdarrayDisk Toy.jsonEnv Toy.numpy ((Toy.packArray Toy.view (.int 8) 200).toOption.getD []) faults 1000 (fun _ => 0)
  (r.1.toBool, r.2.2.lost.isSome, readMem r.2.1 998 12)

-- reading works; it fails before the first chunk, and after it
example : seeUnpack [] = (true, false, [0, 0, 104, 105, 106, 107, 112, 113, 114, 115, 120, 121]) := by decide +kernel
example : seeUnpack (List.replicate 9 none ++ [some (0, 0)]) = (false, true, List.replicate 12 0) := by decide +kernel
example : seeUnpack (List.replicate 10 none ++ [some (0, 0)]) = (false, true, [0, 0, 104, 105, 106, 107, 112, 113, 114, 115, 0, 0]) := by decide +kernel

end NumpyDiskExamples

end Bloscpack
