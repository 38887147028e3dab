import Verif.Model.NumpyShared
import Verif.Props.NumpyDisk
import Verif.Props.Early
/-
C108: reading an array while it is being packed.
-/
namespace Bloscpack

/-- `unpackNdarray_fp` for files of all kinds: the array's memory receives what unpacking the file would have returned -/
theorem unpackNdarrayWith_fp {ω : Type} [Readable ω] (E : Env Json) (lib : NumpyLib) (input : ω) (alloc : Int) (mem : Int → UInt8) :
    (∃ e, (unpackFP E input).1 = .error e ∧ (unpackNdarrayWith E lib alloc mem (input, (mem, alloc))).1 = .error e) ∨
    ∃ md, ((∃ e, plainNumpySink lib md alloc mem = .error e ∧ (unpackNdarrayWith E lib alloc mem (input, (mem, alloc))).1 = .error e) ∨
      ∃ a, plainNumpySink lib md alloc mem = .ok a ∧
        (unpackNdarrayWith E lib alloc mem (input, (mem, alloc))).1 =
          (unpackFP E input).1.map (fun _ => { a with mem := writeMem mem alloc (unpackFP E input).2 })) ∧
      ∀ md', (unpackFP E input).1 = .ok md' → md' = md := by
  unfold unpackNdarrayWith unpackFP
  simp only [Proc.bind_apply, Proc.onFst]
  generalize readBeginning E input = r
  obtain ⟨r, fp⟩ := r
  cases r with
  | error e => exact .inl ⟨e, rfl, rfl⟩
  | ok r =>
    obtain ⟨h, md, x, y⟩ := r
    simp only [Proc.ofExcept]
    cases hi : h.checksumImpl E with
    | error e => exact .inl ⟨e, rfl, rfl⟩
    | ok impl =>
      simp only
      refine .inr ⟨md, ?_, ?_⟩
      · cases hs : plainNumpySink lib md alloc mem with
        | error e => exact .inl ⟨e, rfl, rfl⟩
        | ok a =>
          refine .inr ⟨a, rfl, ?_⟩
          simp only
          have hsim := unpackLoop_sim (compressedFPSource (σ := ω) h impl) (numpySinkPut E) (plainFPSinkPut E)
            (fun t t' => ∃ A lo, t' = Z A [] lo ∧ t = (writeMem mem alloc A, alloc + A.length)) (by
              rintro c t t' ⟨A, lo, rfl, rfl⟩
              unfold numpySinkPut plainFPSinkPut
              cases hd : E.decompress c with
              | error e =>
                rw [Proc.bind_of_error (Proc.ofExcept_apply _ _), Proc.bind_of_error (Proc.ofExcept_apply _ _)]
                exact ⟨rfl, A, lo, rfl, rfl⟩
              | ok d =>
                rw [Proc.bind_of_ok (Proc.ofExcept_apply _ _), Proc.bind_of_ok (Proc.ofExcept_apply _ _), fpWrite_Z]
                refine ⟨rfl, A ++ d, lo ++ [(A.length, d)], by simp, ?_⟩
                simp [Proc.modify, writeMem_append, Int.add_assoc])
            (compressedFPSource (σ := ω) h impl).nchunks.toNat 0 fp (mem, alloc) { data := [] } ⟨[], [], rfl, by simp [writeMem_nil]⟩
          obtain ⟨h1, -, A, lo, h3, h4⟩ := hsim
          unfold unpack
          generalize hp : unpackLoop (compressedFPSource (σ := ω) h impl) (numpySinkPut E) (compressedFPSource (σ := ω) h impl).nchunks.toNat 0 (fp, (mem, alloc)) = p at h1 h4
          generalize hq : unpackLoop (compressedFPSource (σ := ω) h impl) (plainFPSinkPut E) (compressedFPSource (σ := ω) h impl).nchunks.toNat 0 (fp, ({ data := [] } : FP)) = q at h1 h3
          obtain ⟨p1, p2, p3⟩ := p
          obtain ⟨q1, q2, q3⟩ := q
          simp only at h1 h3 h4
          subst h1 h3 h4
          cases p1 with
          | error e => simp [Except.map]
          | ok u => simp [Except.map, Proc.get, Proc.pure]
      · intro md' h'
        generalize unpack _ _ _ = q at h'
        obtain ⟨q1, q2, q3⟩ := q
        cases q1 with
        | error e => cases h'
        | ok u => cases h'; rfl

/-- a file in which nothing is written is no archive -/
theorem unpackShared_empty {μ : Type} (E : Env μ) (view : Nat → Nat → Option UInt8) (hseen : Spec.SeenAnyTime [] view) (bound : Nat) :
    ∃ e, (unpackShared E { view := view, bound := bound }).1 = .error e := by
  have hs : ∀ k i, view k i = none := by
    intro k i
    obtain ⟨d, hd, hv⟩ := hseen k i
    rcases hd with rfl | ⟨_, _, _, _, _, hx, -⟩
    · rw [hv]; rfl
    · simp at hx
  obtain ⟨x, x1, x2, x3⟩ := read_any (v := view) (b := bound) (k := 0) (p := 0) (BLOSCPACK_HEADER_LENGTH : Int)
    (by unfold BLOSCPACK_HEADER_LENGTH; omega)
  have hx : x = [] := by
    rw [x2]
    show bytesFrom (view 0) 0 32 = []
    rw [bytesFrom, hs]
  subst hx
  have hd : BloscpackHeader.decode [] = .error .valueError := by decide
  have e1 : ∃ t, readBeginning E (At view bound 0 0) = (.error .valueError, t) := by
    refine ⟨At view bound 1 0, ?_⟩
    unfold readBeginning
    rw [Proc.bind_of_error (e := .valueError) (s' := At view bound 1 0)]
    unfold readBloscpackHeader
    rw [Proc.bind_of_ok x3, Proc.bind_of_error (Proc.ofExcept_apply _ _ |>.trans (by rw [hd]))]
    rfl
  obtain ⟨t, e1⟩ := e1
  refine ⟨.valueError, ?_⟩
  unfold unpackShared unpackFP
  have e2 : readBeginning E ({ view := view, bound := bound } : Shared) = (.error .valueError, t) := e1
  rw [e2]

/-- C108: an array is being packed to a file, and another process reads the file, from whatever time on. What it finds in every call of `read` may
come from different points in time, and from the middle of a write. It gets an exception, or the array that is being packed: its dtype,
its shape and its elements. The assumptions are those of C106: nothing that starts with the byte 255 can be decompressed; nothing shorter
than a stream of zlib can be; and, if there are checksums, the digest of a chunk is on its way when the chunk has been read (or cannot be
mistaken for a chunk), and the chunks hold whole items. -/
theorem C108_read_while_packing_partial {μ : Type} (E : Env μ) (L : E.Laws) (lib : NumpyLib) (a : NdArray) (alloc : Int) (cs : ChunkSizeArg) (blosc : BloscArgs)
    (b : BloscpackArgs) (m : MetadataArgs) (hs : a.strides.length = a.shape.length) (hg : Spec.GapFree a.dtype) (hk : Spec.Known lib a.dtype)
    (r : Except Err (BloscArgs × MetadataArgs)) (s : FPSink)
    (h : packNdarray E.withJson lib a alloc (compressedFPSink E.withJson) cs blosc b m { fp := { data := [] } } = (r, s))
    (view : Nat → Nat → Option UInt8) (hseen : Spec.SeenAnyTime s.fp.log view)
    (hdig : b.checksum = "None" ∨
      ((∀ n c l, calculateNchunks ((prodShape a.shape * a.itemsize : Nat) : Int) cs = .ok (n, c, l) → a.itemsize ≠ 0 ∧ c % a.itemsize = 0) ∧
        Spec.DigestsNoted (fun c => ∃ x, E.compress x { blosc with typesize := a.itemsize } = .ok c) (fun y => ∃ x, E.decompress y = .ok x) s.fp.log view))
    (hff : ∀ y x, E.decompress (255 :: y) ≠ .ok x)
    (hz : m.meta_codec = "zlib" → ∀ raw z, E.zcompress raw m.meta_level = .ok z → Spec.OnlyWhole z E.zdecompress)
    (bound : Nat) (alloc' : Int) (mem : Int → UInt8) :
    (∃ e, (unpackNdarrayShared E.withJson lib { view := view, bound := bound } alloc' mem).1 = .error e) ∨
      ∃ u, (unpackNdarrayShared E.withJson lib { view := view, bound := bound } alloc' mem).1 = .ok u ∧ Spec.SameArray a u := by
  have hu : (∃ e, (unpackShared E.withJson { view := view, bound := bound }).1 = .error e) ∨
      ∃ md, ndarrayMeta lib a = .ok md ∧ unpackShared E.withJson { view := view, bound := bound } = (.ok (some md), sourceBuffer a alloc) := by
    rcases packNdarray_log E.withJson lib a alloc cs blosc b m r s h with ⟨-, h2⟩ | ⟨md, r', fp, h1, h2, ⟨w, h3, -⟩, -, h4⟩
    · -- nothing is written
      left
      rw [h2] at hseen
      exact unpackShared_empty _ _ hseen bound
    · have hobj : ∃ d, md = .obj d := by
        unfold ndarrayMeta at h1
        rcases hd : a.dtype.descr with e | d
        · rw [hd] at h1; cases h1
        · rw [hd] at h1; cases h1; exact ⟨_, rfl⟩
      obtain ⟨d, rfl⟩ := hobj
      refine (C106_read_dict_partial E L _ cs d _ b m r' fp h2 view ?_ ?_ hff hz bound).imp id fun g => ⟨_, h1, g⟩
      · intro k i
        obtain ⟨x, hx, hv⟩ := hseen k i
        exact ⟨x, by rw [h3]; exact crashed_append hx, hv⟩
      · refine hdig.imp id fun ⟨hfit, hn⟩ => ?_
        rcases h4 with h4 | ⟨n, c, l, h5, h6⟩
        · rwa [h4] at hn
        · obtain ⟨g1, g2⟩ := hfit n c l h5
          rcases h6 with h6 | h6
          · exact absurd h6 g1
          · exact absurd g2 h6
  unfold unpackNdarrayShared
  unfold unpackShared at hu
  rcases hu with ⟨e, hu⟩ | ⟨md, hmd, hu⟩
  · left
    rcases unpackNdarrayWith_fp E.withJson lib ({ view := view, bound := bound } : Shared) alloc' mem with ⟨e', -, h2⟩ | ⟨md, ⟨e', -, h2⟩ | ⟨x, -, h2⟩, -⟩
    · exact ⟨e', h2⟩
    · exact ⟨e', h2⟩
    · exact ⟨e, by rw [h2, hu]; rfl⟩
  · right
    obtain ⟨md', hmd', hsink⟩ := plainNumpySink_meta lib a hg hk
    rw [hmd] at hmd'
    cases hmd'
    rcases unpackNdarrayWith_fp E.withJson lib ({ view := view, bound := bound } : Shared) alloc' mem with ⟨e', h1, -⟩ | ⟨md', hh, h2⟩
    · rw [hu] at h1; cases h1
    · rw [hu] at hh h2
      cases h2 _ rfl
      rw [hsink] at hh
      rcases hh with ⟨e', h1, -⟩ | ⟨x, h1, h2⟩
      · cases h1
      · cases h1
        exact ⟨_, h2, rfl, rfl, fun idx hi => sourceBuffer_item a alloc alloc' mem hs idx hi⟩

/-! ### a case -/

namespace NumpySharedExamples

/-- the writes of packing a strided array in three chunks, with checksums and offsets -/
def log : List (Nat × Bytes) :=
  (packNdarray Toy.strictEnv.withJson Toy.numpy Toy.view 300 (compressedFPSink Toy.strictEnv.withJson) (.int 8) {} { max_app_chunks := .int 1 }
      { meta_codec := "None", max_meta_size := .int 74 } ({ fp := { data := [] } } : FPSink)).2.fp.log

/-- how many of them have been made when the reader calls `read` for the `k`-th time -/
def counts (k : Nat) : Nat := if k < 3 then k + 1 else 23

def view (k i : Nat) : Option UInt8 := (Spec.replay [] (log.take (counts k)))[i]?

example : Spec.SeenAnyTime log view := seenAnyTime_of_counts log counts

-- the array, and the chunks
example : (Toy.view.strides.length = Toy.view.shape.length ∧ Spec.GapFree Toy.view.dtype ∧ Spec.Known Toy.numpy Toy.view.dtype) ∧
    ∀ n c l, calculateNchunks ((prodShape Toy.view.shape * Toy.view.itemsize : Nat) : Int) (.int 8) = .ok (n, c, l) →
      Toy.view.itemsize ≠ 0 ∧ c % Toy.view.itemsize = 0 := by
  refine ⟨Toy.view_known, fun n c l h => ?_⟩
  have : calculateNchunks ((prodShape Toy.view.shape * Toy.view.itemsize : Nat) : Int) (.int 8) = .ok (3, 8, 8) := by decide
  rw [this] at h
  cases h
  decide

example : Spec.DigestsNoted (fun c => ∃ x, Toy.strictEnv.compress x { typesize := Toy.view.itemsize } = .ok c)
    (fun y => ∃ x, Toy.strictEnv.decompress y = .ok x) log view := by
  intro pre p c D post hc hl
  refine .inl fun k k' hk hv => ?_
  have h2 : c.head? = some 2 := by
    obtain ⟨x, hx⟩ := hc
    replace hx : Toy.compress x _ = .ok c := hx
    unfold Toy.compress at hx
    split at hx
    · cases hx; rfl
    · cases hx
  have h1 : ∀ w ∈ log, w.2.head? = some 2 → 174 ≤ w.1 := by decide +kernel
  have h3 := h1 (p, c) (by rw [hl]; simp) h2
  have h4 : ∀ w ∈ log, w.1 < (Spec.replay [] (log.take 23)).length := by decide +kernel
  have h5 := h4 (p + c.length, D) (by rw [hl]; simp)
  have h6 : ∀ n, n < 3 → (Spec.replay [] (log.take (n + 1))).length ≤ 127 := by decide +kernel
  have hk3 : 3 ≤ k := by
    rcases Nat.lt_or_ge k' 3 with hlt | hge
    · exfalso
      simp only [view, counts, hlt, if_true] at hv
      rw [List.getElem?_eq_none (by have := h6 k' hlt; omega)] at hv
      cases hv
    · omega
  simp only [view, counts, show ¬ k < 3 by omega, if_false]
  rw [List.getElem?_eq_getElem h5]
  rfl

-- the reader gets the array: element (1, 2)
example : (unpackNdarrayShared Toy.strictEnv.withJson Toy.numpy { view := view, bound := 300 } 1000 (fun _ => 0)).1.toOption.map (fun u => u.item [1, 2]) =
    some (Toy.view.item [1, 2]) := by
  decide +kernel

-- one that finds only the first two chunks gets an exception, when the first two thirds of the memory for the array have been filled
example : ((unpackNdarrayShared Toy.strictEnv.withJson Toy.numpy { view := fun k i => (Spec.replay [] (log.take (if k < 3 then k + 1 else 20)))[i]?, bound := 300 }
        1000 (fun _ => 0)).1.toBool,
      readMem (unpackNdarrayShared Toy.strictEnv.withJson Toy.numpy { view := fun k i => (Spec.replay [] (log.take (if k < 3 then k + 1 else 20)))[i]?, bound := 300 }
        1000 (fun _ => 0)).2 1014 4) = (false, [102, 103, 0, 0]) := by
  decide +kernel

end NumpySharedExamples

end Bloscpack
