import Verif.Spec.Layout
import Verif.Props.Numpy
/-
C115: an archive holds the elements of an array one after the other, and does not show how they lie in memory.
-/
namespace Bloscpack
open Spec (InShape SameArray cOrder fOrder elements)

theorem cOrder_eq (shape : List Nat) : cOrder shape = indices shape := by
  induction shape with
  | nil => rfl
  | cons n ns ih => rw [cOrder, indices, ih]

theorem cOrder_inShape (shape idx : List Nat) (h : idx ∈ cOrder shape) : InShape shape idx := by
  induction shape generalizing idx with
  | nil =>
    rw [cOrder] at h
    cases List.mem_singleton.1 h
    simp [InShape]
  | cons n ns ih =>
    rw [cOrder, List.mem_flatMap] at h
    obtain ⟨i, hi, h⟩ := h
    obtain ⟨r, hr, rfl⟩ := List.mem_map.1 h
    exact ⟨List.mem_range.1 hi, ih r hr⟩

theorem fOrder_inShape (shape idx : List Nat) (h : idx ∈ fOrder shape) : InShape shape idx := by
  induction shape generalizing idx with
  | nil =>
    rw [fOrder] at h
    cases List.mem_singleton.1 h
    simp [InShape]
  | cons n ns ih =>
    rw [fOrder, List.mem_flatMap] at h
    obtain ⟨r, hr, h⟩ := h
    obtain ⟨i, hi, rfl⟩ := List.mem_map.1 h
    exact ⟨List.mem_range.1 hi, ih r hr⟩

theorem readMem_mul (mem : Int → UInt8) (p : Int) (n k : Nat) :
    readMem mem p (n * k) = (List.range n).flatMap (fun i : Nat => readMem mem (p + ((i * k : Nat) : Int)) k) := by
  induction n with
  | zero => simp [readMem]
  | succ n ih =>
    rw [Nat.succ_mul, readMem_add, ih, List.range_succ, List.flatMap_append]
    simp

theorem readMem_cOrder (mem : Int → UInt8) (item : Nat) (shape : List Nat) (p : Int) :
    readMem mem p (prodShape shape * item) =
      (cOrder shape).flatMap (fun idx => readMem mem (p + strideOffset (cStrides item shape) idx) item) := by
  induction shape generalizing p with
  | nil => simp [prodShape, cOrder, strideOffset, cStrides]
  | cons n ns ih =>
    rw [prodShape, Nat.mul_assoc, readMem_mul, cOrder, List.flatMap_assoc]
    congr 1
    funext i
    rw [ih, List.flatMap_map]
    congr 1
    funext idx
    rw [cStrides, strideOffset, Nat.mul_comm i, Nat.mul_comm (prodShape ns) item, Int.natCast_mul (item * prodShape ns) i, Int.add_assoc]

theorem readMem_fOrder (mem : Int → UInt8) (item : Nat) (shape : List Nat) (p : Int) :
    readMem mem p (prodShape shape * item) =
      (fOrder shape).flatMap (fun idx => readMem mem (p + strideOffset (fStrides item shape) idx) item) := by
  induction shape generalizing p item with
  | nil => simp [prodShape, fOrder, strideOffset, fStrides]
  | cons n ns ih =>
    rw [prodShape, Nat.mul_comm n, Nat.mul_assoc, Nat.mul_comm n item, ih, fOrder, List.flatMap_assoc]
    congr 1
    funext r
    rw [Nat.mul_comm item n, readMem_mul, List.flatMap_map]
    congr 1
    funext i
    rw [fStrides, strideOffset, Nat.mul_comm item n, Nat.mul_comm i item, Int.natCast_mul item i, Int.add_assoc, Int.add_comm (strideOffset _ _)]

theorem flatMap_congr' {α β : Type} {l : List α} {f g : α → List β} (h : ∀ x ∈ l, f x = g x) : l.flatMap f = l.flatMap g := by
  induction l with
  | nil => rfl
  | cons x l ih => rw [List.flatMap_cons, List.flatMap_cons, h x List.mem_cons_self, ih (fun y hy => h y (List.mem_cons_of_mem _ hy))]

/-- what blosc gets are the elements, in their order -/
theorem sourceBuffer_elements (a : NdArray) (alloc : Int) (hs : a.strides.length = a.shape.length) : sourceBuffer a alloc = elements a := by
  unfold elements
  by_cases hf : a.isFortran = true
  · have hsrc : sourceArray a alloc = a := by unfold sourceArray; rw [if_neg (by simp [hf])]
    rw [sourceBuffer, hsrc, if_pos hf, readMem_fOrder]
    refine flatMap_congr' fun idx hi => ?_
    have hi := fOrder_inShape _ _ hi
    have hfc : fStridesOk a.itemsize a.shape a.strides = true := by
      have : a.fContiguous = true := by unfold NdArray.isFortran at hf; simp at hf; exact hf.1
      unfold NdArray.fContiguous at this
      rw [InShape.no_zero hi] at this
      exact this
    rw [NdArray.item, fStridesOk_offset a.itemsize a.shape a.strides idx hs hi hfc]
  · have hf : a.isFortran = false := by simpa using hf
    rw [if_neg (by simp [hf])]
    by_cases hc : a.cContiguous = true
    · have hsrc : sourceArray a alloc = a := by unfold sourceArray; rw [if_neg (by simp [hc])]
      rw [sourceBuffer, hsrc, readMem_cOrder]
      refine flatMap_congr' fun idx hi => ?_
      have hi := cOrder_inShape _ _ hi
      have hcc : cStridesOk a.itemsize a.shape a.strides = true := by
        unfold NdArray.cContiguous at hc
        rw [InShape.no_zero hi] at hc
        exact hc
      rw [NdArray.item, cStridesOk_offset a.itemsize a.shape a.strides idx hs hi hcc]
    · have hsrc : sourceArray a alloc = a.toContiguous alloc := by unfold sourceArray; rw [if_pos ⟨hf, by simpa using hc⟩]
      have hfl := indices_flatMap_length a.itemsize a.shape a.item (by intro idx; simp [NdArray.item])
      rw [sourceBuffer, hsrc, cOrder_eq]
      simp only [NdArray.toContiguous]
      rw [Nat.mul_comm, ← hfl, readMem_writeMem]

/-- C115: what `unpack_bytes_from_bytes` gets out of a packed array are the elements one after the other: in C order, or in Fortran order if
the array is a Fortran array. -/
theorem C115_stored (E : Env Json) (L : E.Laws) (lib : NumpyLib) (a : NdArray) (alloc : Int) (cs : ChunkSizeArg) (blosc : BloscArgs)
    (b : BloscpackArgs) (m : MetadataArgs) (out : Bytes) (hs : a.strides.length = a.shape.length)
    (h : packNdarrayToBytes E lib a alloc cs blosc b m = .ok out) :
    ∃ md, unpackBytesFromBytes E out = .ok (elements a, some md) := by
  obtain ⟨md, -, hu⟩ := packNdarray_ok L h
  rw [sourceBuffer_elements a alloc hs] at hu
  exact ⟨md, unpackBytes_ok hu⟩

/-- a Fortran array of 2 × 3 pairs of bytes -/
def Toy.fortran : NdArray := ⟨.scalar (pyStr "<i2") 2, [2, 3], [2, 4], 50, fun x => UInt8.ofNat x.toNat⟩

-- the first dimension of `view` is reversed, and its elements are every other one along the second
example : (Toy.packArray Toy.view (.int 8) 200).toBool = true ∧
    elements Toy.view = [104, 105, 106, 107, 112, 113, 114, 115, 120, 121, 122, 123, 100, 101, 102, 103, 108, 109, 110, 111, 116, 117, 118, 119] ∧
    (Toy.packArray Toy.fortran (.int 8) 200).toBool = true ∧ Toy.fortran.isFortran = true ∧
    elements Toy.fortran = [50, 51, 52, 53, 54, 55, 56, 57, 58, 59, 60, 61] := by decide +kernel

/-- the chunks depend on the elements only -/
theorem plainNumpySource_elements (a : NdArray) (alloc : Int) (hs : a.strides.length = a.shape.length) (cs : ChunkSizeArg) (n c l : Int)
    (hc : calculateNchunks ((prodShape a.shape * a.itemsize : Nat) : Int) cs = .ok (n, c, l)) :
    plainNumpySource (sourceArray a alloc) c l n =
      match numpyPairs 0 a.itemsize c l n with
      | .error e => { items := [], stop := some e }
      | .ok _ => plainFPSource { data := elements a } c l n := by
  have hitem : (sourceArray a alloc).itemsize = a.itemsize := by unfold sourceArray; split <;> rfl
  cases hp : numpyPairs (sourceArray a alloc).ptr a.itemsize c l n with
  | error e =>
    have h0 : numpyPairs 0 a.itemsize c l n = .error e := by
      unfold numpyPairs at hp ⊢
      split at hp
      · rename_i h; rw [if_pos h]; exact hp
      · rename_i h
        rw [if_neg h]
        split at hp
        · rename_i h; rw [if_pos h]; cases hp; rfl
        · cases hp
    rw [h0]
    unfold plainNumpySource
    rw [hitem, hp]
  | ok ps =>
    have h0 : ∃ qs, numpyPairs 0 a.itemsize c l n = .ok qs := by
      unfold numpyPairs at hp ⊢
      split at hp
      · cases hp
      · rename_i h
        rw [if_neg h]
        split at hp
        · cases hp
        · rename_i h; rw [if_neg h]; exact ⟨_, rfl⟩
    obtain ⟨qs, h0⟩ := h0
    have hq := numpySource_eq (sourceArray a alloc) (prodShape a.shape) cs n c l ps (by rw [hitem]; exact hc) (by rw [hitem]; exact hp)
    rw [hitem] at hq
    rw [h0, hq]
    show plainFPSource { data := sourceBuffer a alloc } c l n = _
    rw [sourceBuffer_elements a alloc hs]

/-- C115: two arrays with the same type, shape and elements that are both Fortran arrays or both not are packed to the same bytes by any sink, or
with the same exception, wherever and however they lie in memory. -/
theorem C115_layout {σ : Type} (E : Env Json) (lib : NumpyLib) (a a' : NdArray) (hs : a.strides.length = a.shape.length)
    (hs' : a'.strides.length = a'.shape.length) (hsame : SameArray a a') (hf : a.isFortran = a'.isFortran) (alloc alloc' : Int)
    (sink : CompressedSink Json σ) (cs : ChunkSizeArg) (blosc : BloscArgs) (b : BloscpackArgs) (m : MetadataArgs) :
    packNdarray E lib a alloc sink cs blosc b m = packNdarray E lib a' alloc' sink cs blosc b m := by
  have hd := hsame.dtype
  have hsh := hsame.shape
  have hit : a'.itemsize = a.itemsize := by unfold NdArray.itemsize; rw [hd]
  have hel : elements a' = elements a := by
    unfold elements
    rw [hsh, ← hf]
    refine flatMap_congr' fun idx hi => hsame.items idx ?_
    split at hi
    · exact fOrder_inShape _ _ hi
    · exact cOrder_inShape _ _ hi
  have hmeta : ndarrayMeta lib a' = ndarrayMeta lib a := by unfold ndarrayMeta; rw [hd, hsh, hf]
  have hel' := plainNumpySource_elements a alloc hs cs
  have hel'' := plainNumpySource_elements a' alloc' hs' cs
  rw [hsh, hit, hel] at hel''
  unfold packNdarray
  simp only [hd, hit, hmeta, hsh]
  cases ho : a.dtype.hasObject with
  | true => funext s; rw [Proc.bind_of_error (e := .objectNumpyArrayRejection) (s' := s) (by simp [Proc.raiseIf, Proc.raise, hd, ho]), Proc.bind_of_error (e := .objectNumpyArrayRejection) (s' := s) (by simp [Proc.raiseIf, Proc.raise, hd, ho])]
  | false =>
    funext s
    rw [Proc.bind_of_ok (a := ()) (s' := s) (by simp [Proc.raiseIf, Proc.pure, hd, ho]), Proc.bind_of_ok (a := ()) (s' := s) (by simp [Proc.raiseIf, Proc.pure, hd, ho])]
    cases hmd : ndarrayMeta lib a with
    | error e => rw [Proc.bind_of_error (Proc.ofExcept_apply _ _), Proc.bind_of_error (Proc.ofExcept_apply _ _)]
    | ok md =>
      rw [Proc.bind_of_ok (Proc.ofExcept_apply _ _), Proc.bind_of_ok (Proc.ofExcept_apply _ _)]
      cases hc : calculateNchunks ((prodShape a.shape * a.itemsize : Nat) : Int) cs with
      | error e => rw [Proc.bind_of_error (Proc.ofExcept_apply _ _), Proc.bind_of_error (Proc.ofExcept_apply _ _)]
      | ok r =>
        obtain ⟨n, c, l⟩ := r
        rw [Proc.bind_of_ok (Proc.ofExcept_apply _ _), Proc.bind_of_ok (Proc.ofExcept_apply _ _)]
        simp only
        have hpk : pack E (plainNumpySource (sourceArray a alloc)) sink n c l (some md) { blosc with typesize := a.itemsize } b m =
            pack E (plainNumpySource (sourceArray a' alloc')) sink n c l (some md) { blosc with typesize := a.itemsize } b m := by
          unfold pack
          rw [hel' n c l hc, hel'' n c l hc]
        rw [hpk]

/-- C115 for `pack_ndarray_to_bytes` -/
theorem C115_layout_bytes (E : Env Json) (lib : NumpyLib) (a a' : NdArray) (hs : a.strides.length = a.shape.length)
    (hs' : a'.strides.length = a'.shape.length) (hsame : SameArray a a') (hf : a.isFortran = a'.isFortran) (alloc alloc' : Int)
    (cs : ChunkSizeArg) (blosc : BloscArgs) (b : BloscpackArgs) (m : MetadataArgs) :
    packNdarrayToBytes E lib a alloc cs blosc b m = packNdarrayToBytes E lib a' alloc' cs blosc b m := by
  unfold packNdarrayToBytes
  rw [C115_layout E lib a a' hs hs' hsame hf alloc alloc']

/-- the elements of `Toy.view` one after the other at another address -/
def Toy.viewCopy : NdArray :=
  ⟨.scalar (pyStr "<i4") 4, [2, 3], [12, 4], 500, fun x => UInt8.ofNat (104 - 4 * ((x - 500) / 12) + 8 * ((x - 500) % 12 / 4) + (x - 500) % 4).toNat⟩

example : SameArray Toy.view Toy.viewCopy ∧ Toy.view.isFortran = Toy.viewCopy.isFortran ∧ Toy.view.cContiguous = false ∧
    Toy.viewCopy.cContiguous = true ∧ Toy.view.strides ≠ Toy.viewCopy.strides := by
  refine ⟨⟨rfl, rfl, fun idx h => ?_⟩, by decide, by decide, by decide, by decide⟩
  have : ∀ idx ∈ cOrder [2, 3], Toy.viewCopy.item idx = Toy.view.item idx := by decide +kernel
  rcases idx with _ | ⟨i, _ | ⟨j, _ | ⟨k, r⟩⟩⟩
  · exact absurd h (by simp [InShape, Toy.view])
  · exact absurd h (by simp [InShape, Toy.view])
  · obtain ⟨h1, h2, -⟩ := h
    refine this _ ?_
    match i, j, h1, h2 with
    | 0, 0, _, _ => decide
    | 0, 1, _, _ => decide
    | 0, 2, _, _ => decide
    | 1, 0, _, _ => decide
    | 1, 1, _, _ => decide
    | 1, 2, _, _ => decide
  · exact absurd h (by simp [InShape, Toy.view])

/-! ### packing an unpacked array again -/

theorem cStrides_length (item : Nat) (shape : List Nat) : (cStrides item shape).length = shape.length := by
  induction shape with
  | nil => rfl
  | cons n ns ih => simp [cStrides, ih]

theorem fStrides_length (item : Nat) (shape : List Nat) : (fStrides item shape).length = shape.length := by
  induction shape generalizing item with
  | nil => rfl
  | cons n ns ih => simp [fStrides, ih]

theorem cStridesOk_cStrides (item : Nat) (shape : List Nat) : cStridesOk item shape (cStrides item shape) = true := by
  induction shape with
  | nil => rfl
  | cons n ns ih => simp [cStrides, cStridesOk, ih]

theorem fStridesOk_fStrides (item : Nat) (shape : List Nat) : fStridesOk item shape (fStrides item shape) = true := by
  induction shape generalizing item with
  | nil => rfl
  | cons n ns ih => simp [fStrides, fStridesOk, ih]

/-- dimensions of size 1 do not count -/
theorem cStridesOk_of_f (item item' : Nat) (shape : List Nat) (strides : List Int) (hl : strides.length = shape.length)
    (h : fStridesOk item shape strides = true) : cStridesOk item' shape (fStrides item shape) = cStridesOk item' shape strides := by
  induction shape generalizing item strides with
  | nil => cases strides with
    | nil => rfl
    | cons _ _ => cases hl
  | cons n ns ih => cases strides with
    | nil => cases hl
    | cons s ss =>
      simp only [fStridesOk, Bool.and_eq_true, Bool.or_eq_true, beq_iff_eq] at h
      rw [fStrides, cStridesOk, cStridesOk, ih (item * n) ss (by simpa using hl) h.2]
      rcases h.1 with h1 | h1
      · simp [h1]
      · rw [h1]

/-- an unpacked array is a Fortran array if and only if the packed one was one -/
theorem unpacked_isFortran (a : NdArray) (hs : a.strides.length = a.shape.length) (alloc : Int) (mem : Int → UInt8) :
    (⟨a.dtype, a.shape, if a.isFortran then fStrides a.itemsize a.shape else cStrides a.itemsize a.shape, alloc, mem⟩ : NdArray).isFortran =
      a.isFortran := by
  cases hf : a.isFortran with
  | false =>
    simp only [Bool.false_eq_true, if_false]
    unfold NdArray.isFortran NdArray.cContiguous
    simp only [NdArray.itemsize]
    rw [cStridesOk_cStrides]
    simp
  | true =>
    simp only [if_true]
    have h1 : a.fContiguous = true ∧ a.cContiguous = false := by unfold NdArray.isFortran at hf; simpa using hf
    obtain ⟨h1, h2⟩ := h1
    unfold NdArray.cContiguous at h2
    rw [Bool.or_eq_false_iff] at h2
    unfold NdArray.fContiguous at h1
    rw [h2.1, Bool.false_or] at h1
    unfold NdArray.isFortran NdArray.fContiguous NdArray.cContiguous
    simp only [NdArray.itemsize] at h1 h2 ⊢
    rw [fStridesOk_fStrides, cStridesOk_of_f _ _ _ _ hs h1, h2.1, h2.2]
    rfl

/-- C115: an array that is unpacked and packed again with the same settings gives the same archive. -/
theorem C115_again (E : Env Json) (L : E.Laws) (lib : NumpyLib) (a : NdArray) (alloc : Int) (cs : ChunkSizeArg) (blosc : BloscArgs)
    (b : BloscpackArgs) (m : MetadataArgs) (out : Bytes) (hs : a.strides.length = a.shape.length) (hg : Spec.GapFree a.dtype)
    (hk : Spec.Known lib a.dtype) (h : packNdarrayToBytes E lib a alloc cs blosc b m = .ok out) (alloc' alloc'' : Int) (mem : Int → UInt8) :
    ∃ r, (unpackNdarrayFromBytes E lib out alloc' mem).1 = .ok r ∧ packNdarrayToBytes E lib r alloc'' cs blosc b m = .ok out := by
  obtain ⟨md, hmd, hu⟩ := packNdarray_ok L h
  rw [unpackNdarray_meta E lib a hg hk md hmd out _ hu]
  refine ⟨_, rfl, Eq.trans (C115_layout_bytes E lib a
    ⟨a.dtype, a.shape, if a.isFortran then fStrides a.itemsize a.shape else cStrides a.itemsize a.shape, alloc', writeMem mem alloc' (sourceBuffer a alloc)⟩
    hs ?_ ⟨rfl, rfl, fun idx hi => sourceBuffer_item a alloc alloc' mem hs idx hi⟩
    (unpacked_isFortran a hs _ _).symm alloc alloc'' cs blosc b m).symm h⟩
  show List.length (if a.isFortran = true then fStrides a.itemsize a.shape else cStrides a.itemsize a.shape) = a.shape.length
  split
  · exact fStrides_length _ _
  · exact cStrides_length _ _

example : Toy.view.strides.length = Toy.view.shape.length ∧ Spec.GapFree Toy.view.dtype ∧ Spec.Known Toy.numpy Toy.view.dtype ∧
    (Toy.packArray Toy.view (.int 8) 200).toBool = true := ⟨Toy.view_known.1, Toy.view_known.2.1, Toy.view_known.2.2, by decide +kernel⟩

end Bloscpack
