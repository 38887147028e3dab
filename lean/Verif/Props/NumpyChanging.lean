import Verif.Model.NumpyChanging
import Verif.Props.NumpyLayout
import Verif.Props.SameFile
/-
C116: what an archive of an array holds that was changed by other threads while it was packed.
-/
namespace Bloscpack
open Spec (InShape SameArray cOrder fOrder elements)

/-! ### positions of elements -/

theorem getElem?_flatMap_blocks {α β : Type} (f : α → List β) (B : Nat) (hf : ∀ x, (f x).length = B) (l : List α) (k : Nat) (y : β)
    (h : (l.flatMap f)[k]? = some y) : ∃ x, l[k / B]? = some x ∧ (f x)[k % B]? = some y := by
  induction l generalizing k with
  | nil => simp at h
  | cons x l ih =>
    rw [List.flatMap_cons] at h
    by_cases hk : k < B
    · rw [List.getElem?_append_left (by rw [hf]; exact hk)] at h
      exact ⟨x, by rw [Nat.div_eq_of_lt hk]; rfl, by rw [Nat.mod_eq_of_lt hk]; exact h⟩
    · rw [List.getElem?_append_right (by rw [hf]; omega), hf] at h
      obtain ⟨z, h1, h2⟩ := ih _ h
      have hB : 0 < B := by
        apply Nat.pos_of_ne_zero
        intro h0
        have : ∀ l : List α, l.flatMap f = [] := by
          intro l
          rw [List.flatMap_eq_nil_iff]
          intro x _
          exact List.length_eq_zero_iff.1 (by rw [hf, h0])
        rw [this l] at h
        simp at h
      refine ⟨z, ?_, ?_⟩
      · rw [show k = k - B + B by omega, Nat.add_div_right _ hB, List.getElem?_cons_succ]; exact h1
      · rw [show k = k - B + B by omega, Nat.add_mod_right]; exact h2

theorem cOrder_length (shape : List Nat) : (cOrder shape).length = prodShape shape := by
  induction shape with
  | nil => rfl
  | cons n ns ih => rw [cOrder, flatMap_range_length _ (prodShape ns) n (by intro i; simp [ih])]; rfl

theorem fOrder_length (shape : List Nat) : (fOrder shape).length = prodShape shape := by
  induction shape with
  | nil => rfl
  | cons n ns ih =>
    rw [fOrder, prodShape, ← ih]
    generalize fOrder ns = l
    induction l with
    | nil => simp
    | cons r l ih => rw [List.flatMap_cons, List.length_append, ih, List.length_cons, Nat.mul_succ]; simp [Nat.add_comm]

theorem cOrder_offset (item : Nat) (shape idx : List Nat) (k : Nat) (h : (cOrder shape)[k]? = some idx) :
    strideOffset (cStrides item shape) idx = ((k * item : Nat) : Int) := by
  induction shape generalizing idx k with
  | nil =>
    rw [cOrder] at h
    cases k with
    | zero => cases h; simp [cStrides, strideOffset]
    | succ k => simp at h
  | cons n ns ih =>
    rw [cOrder] at h
    obtain ⟨i, h1, h2⟩ := getElem?_flatMap_blocks _ (prodShape ns) (by intro i; simp [cOrder_length]) _ _ _ h
    rw [List.getElem?_map, Option.map_eq_some_iff] at h2
    obtain ⟨r, h2, rfl⟩ := h2
    have hi : i = k / prodShape ns := by
      rw [List.getElem?_range (by
        have := (List.getElem?_eq_some_iff.1 h1).1
        simpa using this)] at h1
      exact (Option.some.inj h1).symm
    rw [cStrides, strideOffset, ih _ _ h2, hi, ← Int.natCast_mul, ← Int.natCast_add]
    congr 1
    have := Nat.div_add_mod k (prodShape ns)
    calc item * prodShape ns * (k / prodShape ns) + k % prodShape ns * item
        = item * (prodShape ns * (k / prodShape ns) + k % prodShape ns) := by rw [Nat.mul_add, Nat.mul_assoc, Nat.mul_comm (k % _)]
      _ = k * item := by rw [this, Nat.mul_comm]

theorem fOrder_offset (item : Nat) (shape idx : List Nat) (k : Nat) (h : (fOrder shape)[k]? = some idx) :
    strideOffset (fStrides item shape) idx = ((k * item : Nat) : Int) := by
  induction shape generalizing idx k item with
  | nil =>
    rw [fOrder] at h
    cases k with
    | zero => cases h; simp [fStrides, strideOffset]
    | succ k => simp at h
  | cons n ns ih =>
    rw [fOrder] at h
    obtain ⟨r, h1, h2⟩ := getElem?_flatMap_blocks _ n (by intro i; simp) _ _ _ h
    rw [List.getElem?_map, Option.map_eq_some_iff] at h2
    obtain ⟨i, h2, rfl⟩ := h2
    have hi : i = k % n := by
      rw [List.getElem?_range (by
        have := (List.getElem?_eq_some_iff.1 h2).1
        simpa using this)] at h2
      exact (Option.some.inj h2).symm
    rw [fStrides, strideOffset, ih _ _ _ h1, hi, ← Int.natCast_mul, ← Int.natCast_add]
    congr 1
    have := Nat.div_add_mod k n
    calc item * (k % n) + k / n * (item * n)
        = item * (n * (k / n) + k % n) := by
          rw [Nat.mul_add, Nat.add_comm, Nat.mul_comm (k / n), Nat.mul_assoc]
      _ = k * item := by rw [this, Nat.mul_comm]

theorem mem_cOrder {shape idx : List Nat} (h : InShape shape idx) : idx ∈ cOrder shape := by
  induction shape generalizing idx with
  | nil => cases idx with
    | nil => simp [cOrder]
    | cons _ _ => exact h.elim
  | cons n ns ih => cases idx with
    | nil => exact h.elim
    | cons i is =>
      rw [cOrder, List.mem_flatMap]
      exact ⟨i, List.mem_range.2 h.1, List.mem_map.2 ⟨is, ih h.2, rfl⟩⟩

theorem mem_fOrder {shape idx : List Nat} (h : InShape shape idx) : idx ∈ fOrder shape := by
  induction shape generalizing idx with
  | nil => cases idx with
    | nil => simp [fOrder]
    | cons _ _ => exact h.elim
  | cons n ns ih => cases idx with
    | nil => exact h.elim
    | cons i is =>
      rw [fOrder, List.mem_flatMap]
      exact ⟨is, ih h.2, List.mem_map.2 ⟨i, List.mem_range.2 h.1, rfl⟩⟩

/-! ### the pieces -/

theorem pieces_range {α : Type} (g : Nat → Nat → List α) (k per lp : Nat) (hlp : lp ≤ per) :
    ((List.range k).map (fun i => (List.range per).flatMap (fun x => g i (i * per + x))) ++ [(List.range lp).flatMap (fun x => g k (k * per + x))]).flatten =
      (List.range (k * per + lp)).flatMap (fun j => g (j / per) j) := by
  have hrow : ∀ i m, m ≤ per → (List.range m).flatMap (fun x => g i (i * per + x)) =
      ((List.range m).map (i * per + ·)).flatMap (fun j => g (j / per) j) := by
    intro i m hm
    rw [List.flatMap_map]
    refine flatMap_congr' fun x hx => ?_
    have hx := List.mem_range.1 hx
    have : (i * per + x) / per = i := by
      rw [Nat.mul_comm, Nat.mul_add_div (by omega), Nat.div_eq_of_lt (by omega)]; rfl
    rw [this]
  have hrows : ∀ k, ((List.range k).map (fun i => (List.range per).flatMap (fun x => g i (i * per + x)))).flatten =
      (List.range (k * per)).flatMap (fun j => g (j / per) j) := by
    intro k
    induction k with
    | zero => simp
    | succ k ih =>
      rw [List.range_succ, List.map_append, List.flatten_append, ih, Nat.succ_mul, List.range_add, List.flatMap_append]
      simp only [List.map_cons, List.map_nil, List.flatten_cons, List.flatten_nil, List.append_nil]
      rw [hrow k per (Nat.le_refl _)]
  rw [List.flatten_append, hrows, List.range_add, List.flatMap_append]
  simp only [List.flatten_cons, List.flatten_nil, List.append_nil]
  rw [hrow k lp hlp]

theorem mapIdx_range {α : Type} (k : Nat) (p : Nat → Int × Int) (q : Int × Int) (f : Nat → Int × Int → α) :
    ((List.range k).map p ++ [q]).mapIdx f = (List.range k).map (fun i => f i (p i)) ++ [f k q] := by
  rw [List.mapIdx_append]
  simp only [List.length_map, List.length_range, List.mapIdx_cons, List.mapIdx_nil, Nat.zero_add]
  congr 1
  apply List.ext_getElem?
  intro i
  simp only [List.getElem?_mapIdx, List.getElem?_map]
  by_cases hi : i < k
  · simp [List.getElem?_range hi]
  · simp [List.getElem?_eq_none (l := List.range k) (i := i) (by simpa using hi)]

theorem mapIdx_map {α β : Type} (f : α → β) (l : List α) : l.mapIdx (fun _ x => f x) = l.map f := by
  apply List.ext_getElem?
  intro i
  rw [List.getElem?_mapIdx, List.getElem?_map]

/-- what blosc gets: element `j` from the memory when its chunk is compressed -/
theorem changing_pieces (a : NdArray) (alloc : Int) (mems : Nat → Int → UInt8) (hcopy : ¬ (a.isFortran = false ∧ a.cContiguous = false))
    (cs : ChunkSizeArg) (n c l : Int) (hc : calculateNchunks ((prodShape a.shape * a.itemsize : Nat) : Int) cs = .ok (n, c, l)) :
    (∃ e, changingNumpySource a alloc mems c l n = ⟨[], some e⟩) ∨
    ∃ pieces per, changingNumpySource a alloc mems c l n = ⟨pieces, none⟩ ∧ pieces.length = n.toNat ∧ c = ((per * a.itemsize : Nat) : Int) ∧
      (∀ j, j < prodShape a.shape → ((j / per : Nat) : Int) < n) ∧
      pieces.flatten = (List.range (prodShape a.shape)).flatMap (fun j : Nat => readMem (mems (j / per)) (a.ptr + ((j * a.itemsize : Nat) : Int)) a.itemsize) := by
  have hsrc : sourceArray a alloc = a := by unfold sourceArray; rw [if_neg hcopy]
  unfold changingNumpySource
  rw [hsrc]
  cases hp : numpyPairs a.ptr a.itemsize c l n with
  | error e => exact .inl ⟨e, rfl⟩
  | ok ps =>
    refine .inr ?_
    obtain ⟨h0, hd, rfl⟩ := numpyPairs_ok hp
    obtain ⟨h1, h2, -, h3, h4, h5, h6⟩ := C02_chunking_covers _ _ _ _ _ hc
    have hl0 : 0 ≤ l ∧ 0 ≤ c := by
      by_cases hz : prodShape a.shape * a.itemsize = 0
      · have := h5 (by exact_mod_cast hz); omega
      · have := (h6 (by exact_mod_cast hz)).1; omega
    have hdl : (a.itemsize : Int) ∣ l := by
      have : l = ((prodShape a.shape * a.itemsize : Nat) : Int) - c * (n - 1) := by omega
      rw [this]
      exact Int.dvd_sub (by rw [Int.natCast_mul]; exact Int.dvd_mul_left _ _) (Int.dvd_trans hd (Int.dvd_mul_right _ _))
    obtain ⟨k, hk⟩ : ∃ k : Nat, (n - 1).toNat = k := ⟨_, rfl⟩
    have hkn : n = ((k + 1 : Nat) : Int) := by clear h1 hdl hd h5 h6 h4 hl0; omega
    have hpos : 0 < a.itemsize := Nat.pos_of_ne_zero h0
    obtain ⟨per, rfl⟩ : ∃ per : Nat, c = ((per * a.itemsize : Nat) : Int) := by
      obtain ⟨c, rfl⟩ := Int.eq_ofNat_of_zero_le hl0.2
      obtain ⟨x, hx⟩ := Int.natCast_dvd_natCast.1 hd
      exact ⟨x, by rw [hx, Nat.mul_comm]⟩
    obtain ⟨lp, rfl⟩ : ∃ lp : Nat, l = ((lp * a.itemsize : Nat) : Int) := by
      obtain ⟨l, rfl⟩ := Int.eq_ofNat_of_zero_le hl0.1
      obtain ⟨x, hx⟩ := Int.natCast_dvd_natCast.1 hdl
      exact ⟨x, by rw [hx, Nat.mul_comm]⟩
    have hlp : lp ≤ per := Nat.le_of_mul_le_mul_right (Int.ofNat_le.1 h3) hpos
    have hN : prodShape a.shape = k * per + lp := by
      have e : n - 1 = (k : Int) := by omega
      rw [e, ← Int.natCast_mul, ← Int.natCast_add] at h1
      have h1 := Int.ofNat.inj h1
      apply Nat.eq_of_mul_eq_mul_right hpos
      rw [← h1, Nat.add_mul, Nat.mul_right_comm, Nat.mul_comm per k]
    rw [hk]
    simp only [mapIdx_range, if_neg hcopy, Int.ediv_mul_cancel hd, Int.ediv_mul_cancel hdl, Int.toNat_natCast]
    refine ⟨_, per, rfl, by simp [hkn], rfl, ?_, ?_⟩
    · intro j hj
      rw [hkn]
      apply Int.ofNat_lt.2
      rw [hN] at hj
      by_cases hz : per = 0
      · subst hz; omega
      · rw [Nat.div_lt_iff_lt_mul (Nat.pos_of_ne_zero hz), Nat.succ_mul]
        omega
    · rw [hN, ← pieces_range (fun t j : Nat => readMem (mems t) (a.ptr + ((j * a.itemsize : Nat) : Int)) a.itemsize) k per lp hlp]
      congr 1
      have hrow : ∀ i m : Nat, readMem (mems i) (a.ptr + (i : Int) * ((per * a.itemsize : Nat) : Int)) (m * a.itemsize) =
          (List.range m).flatMap (fun x => readMem (mems i) (a.ptr + (((i * per + x) * a.itemsize : Nat) : Int)) a.itemsize) := by
        intro i m
        rw [readMem_mul]
        refine flatMap_congr' fun x _ => ?_
        congr 1
        rw [Nat.add_mul, Int.natCast_add, ← Int.natCast_mul, ← Nat.mul_assoc, Int.add_assoc]
      congr 1
      · apply List.map_congr_left
        intro i _
        exact hrow i per
      · rw [hrow k lp]

theorem packChanging_ok {E : Env Json} {lib : NumpyLib} {a : NdArray} {alloc : Int} {mems : Nat → Int → UInt8} {cs : ChunkSizeArg} {blosc : BloscArgs}
    {b : BloscpackArgs} {m : MetadataArgs} {out : Bytes} (h : packChangingNdarrayToBytes E lib a alloc mems cs blosc b m = .ok out) :
    ∃ md n c l m' s, ndarrayMeta lib a = .ok md ∧ calculateNchunks ((prodShape a.shape * a.itemsize : Nat) : Int) cs = .ok (n, c, l) ∧
      pack E (changingNumpySource a alloc mems) (compressedFPSink E) n c l (some md) { blosc with typesize := a.itemsize } b m
        ({ fp := { data := [] } } : FPSink) = (.ok m', s) ∧ s.fp.data = out := by
  unfold packChangingNdarrayToBytes packChangingNdarray at h
  cases ho : a.dtype.hasObject with
  | true =>
    rw [Proc.bind_of_error (e := .objectNumpyArrayRejection) (s' := { fp := { data := [] } }) (by simp [Proc.raiseIf, Proc.raise, ho])] at h
    cases h
  | false =>
    rw [Proc.bind_of_ok (a := ()) (s' := { fp := { data := [] } }) (by simp [Proc.raiseIf, Proc.pure, ho])] at h
    cases hmd : ndarrayMeta lib a with
    | error e => rw [hmd, Proc.bind_of_error (Proc.ofExcept_apply _ _)] at h; cases h
    | ok md =>
      rw [hmd, Proc.bind_of_ok (Proc.ofExcept_apply _ _)] at h
      cases hc : calculateNchunks ((prodShape a.shape * a.itemsize : Nat) : Int) cs with
      | error e => rw [hc, Proc.bind_of_error (Proc.ofExcept_apply _ _)] at h; cases h
      | ok r =>
        obtain ⟨n, c, l⟩ := r
        rw [hc, Proc.bind_of_ok (Proc.ofExcept_apply _ _)] at h
        simp only at h
        generalize hr : pack E (changingNumpySource a alloc mems) (compressedFPSink E) n c l (some md) _ b m _ = r at h
        obtain ⟨x, s⟩ := r
        cases x with
        | error e => rw [Proc.bind_of_error hr] at h; cases h
        | ok m' =>
          rw [Proc.bind_of_ok hr] at h
          exact ⟨md, n, c, l, m', s, rfl, rfl, hr, Except.ok.inj h⟩

/-- C116: if an array is packed whose elements are changed meanwhile, the archive is unpacked to an array of the same type and shape, each element
of which is as it was when its chunk was compressed, chunks being taken in order: no element is half old and half new, and no element is older than
one before it. `mems t` is the memory when chunk `t` is compressed, `per` the number of elements in a chunk. -/
theorem C116_changed (E : Env Json) (L : E.Laws) (lib : NumpyLib) (a : NdArray) (alloc : Int) (mems : Nat → Int → UInt8) (cs : ChunkSizeArg)
    (blosc : BloscArgs) (b : BloscpackArgs) (m : MetadataArgs) (out : Bytes) (hs : a.strides.length = a.shape.length)
    (hcont : a.isFortran = true ∨ a.cContiguous = true) (hg : Spec.GapFree a.dtype) (hk : Spec.Known lib a.dtype)
    (h : packChangingNdarrayToBytes E lib a alloc mems cs blosc b m = .ok out) (alloc' : Int) (mem : Int → UInt8) :
    ∃ r n c l per, (unpackNdarrayFromBytes E lib out alloc' mem).1 = .ok r ∧ r.dtype = a.dtype ∧ r.shape = a.shape ∧
      calculateNchunks ((prodShape a.shape * a.itemsize : Nat) : Int) cs = .ok (n, c, l) ∧ c = ((per * a.itemsize : Nat) : Int) ∧
      ∀ idx, InShape a.shape idx → ∃ k, ((if a.isFortran then fOrder else cOrder) a.shape)[k]? = some idx ∧ ((k / per : Nat) : Int) < n ∧
        r.item idx = NdArray.item { a with mem := mems (k / per) } idx := by
  obtain ⟨md, n, c, l, m', s, hmd, hc, hpk, rfl⟩ := packChanging_ok h
  have hcopy : ¬ (a.isFortran = false ∧ a.cContiguous = false) := by
    rintro ⟨h1, h2⟩
    rcases hcont with h | h
    · rw [h1] at h; cases h
    · rw [h2] at h; cases h
  obtain ⟨e, he⟩ | ⟨pieces, per, hp, hlen, hper, hlt, hfl⟩ := changing_pieces a alloc mems hcopy cs n c l hc
  · exact absurd hpk ((pack_stop E _ (plainFPSource { data := [] }) (compressedFPSink E) n c l (some md) _ b m _ e he).2 _ _)
  have hn : 1 ≤ n := (C02_chunking_covers _ _ _ _ _ hc).2.1
  obtain ⟨hu, -⟩ := C67_holds_what_was_read E L _ n c l (some md) _ b m m' hn pieces hp hlen s hpk
  have hlenF : pieces.flatten.length = prodShape a.shape * a.itemsize := by
    rw [hfl, flatMap_range_length _ a.itemsize _ (by intro i; simp)]
  have hun : unpackNdarrayFromBytes E lib s.fp.data alloc' mem = _ :=
    unpackNdarray_meta_fp E lib a hg hk md hmd { data := s.fp.data, inMemory := true } pieces.flatten (by
      unfold unpackBytesFromBytes at hu
      generalize unpackFP E { data := s.fp.data, inMemory := true } = q at hu
      obtain ⟨x, o⟩ := q
      cases x with
      | error e => cases hu
      | ok x => cases hu; rfl) alloc' mem
  rw [hun]
  refine ⟨_, n, c, l, per, rfl, rfl, rfl, hc, hper, fun idx hi => ?_⟩
  have hz := InShape.no_zero hi
  -- the position of the element, in the archive and in the array
  have hpos : ∃ k, ((if a.isFortran then fOrder else cOrder) a.shape)[k]? = some idx ∧ k < prodShape a.shape ∧
      strideOffset (if a.isFortran then fStrides a.itemsize a.shape else cStrides a.itemsize a.shape) idx = ((k * a.itemsize : Nat) : Int) ∧
      strideOffset a.strides idx = ((k * a.itemsize : Nat) : Int) := by
    cases hf : a.isFortran with
    | true =>
      simp only [if_true]
      obtain ⟨k, hk1, hk2⟩ := List.getElem_of_mem (mem_fOrder hi)
      have hk3 : (fOrder a.shape)[k]? = some idx := by rw [List.getElem?_eq_getElem hk1, hk2]
      have hfc : fStridesOk a.itemsize a.shape a.strides = true := by
        have : a.fContiguous = true := by unfold NdArray.isFortran at hf; simp at hf; exact hf.1
        unfold NdArray.fContiguous at this
        rw [hz] at this
        exact this
      have ho := fOrder_offset a.itemsize _ _ _ hk3
      refine ⟨k, hk3, ?_, ho, by rw [fStridesOk_offset a.itemsize a.shape a.strides idx hs hi hfc, ho]⟩
      rwa [fOrder_length] at hk1
    | false =>
      simp only [Bool.false_eq_true, if_false]
      obtain ⟨k, hk1, hk2⟩ := List.getElem_of_mem (mem_cOrder hi)
      have hk3 : (cOrder a.shape)[k]? = some idx := by rw [List.getElem?_eq_getElem hk1, hk2]
      have hcc : cStridesOk a.itemsize a.shape a.strides = true := by
        have : a.cContiguous = true := by
          rcases hcont with h | h
          · rw [hf] at h; cases h
          · exact h
        unfold NdArray.cContiguous at this
        rw [hz] at this
        exact this
      have ho := cOrder_offset a.itemsize _ _ _ hk3
      refine ⟨k, hk3, ?_, ho, by rw [cStridesOk_offset a.itemsize a.shape a.strides idx hs hi hcc, ho]⟩
      rwa [cOrder_length] at hk1
  obtain ⟨k, hk1, hk2, hk3, hk4⟩ := hpos
  refine ⟨k, hk1, hlt k hk2, ?_⟩
  have hle : k * a.itemsize + a.itemsize ≤ prodShape a.shape * a.itemsize := by
    rw [← Nat.succ_mul]; exact Nat.mul_le_mul_right _ hk2
  show readMem (writeMem mem alloc' pieces.flatten) (alloc' + strideOffset (if a.isFortran then fStrides a.itemsize a.shape else cStrides a.itemsize a.shape) idx) a.itemsize =
    readMem (mems (k / per)) (a.ptr + strideOffset a.strides idx) a.itemsize
  rw [hk3, hk4, ← readMem_slice _ _ (prodShape a.shape * a.itemsize) _ _ hle, ← hlenF, readMem_writeMem, hfl]
  have := slice_flatMap_range (fun j : Nat => readMem (mems (j / per)) (a.ptr + ((j * a.itemsize : Nat) : Int)) a.itemsize) a.itemsize (prodShape a.shape) k 0
    a.itemsize (by intro i; simp) hk2 (by omega)
  rw [Nat.add_zero, Nat.mul_comm] at this
  rw [this, slice_all _ _ (by simp)]

/-- C116: changes of an array that is neither C nor Fortran contiguous do not matter: the copy made before is packed. -/
theorem C116_copied (E : Env Json) (lib : NumpyLib) (a : NdArray) (alloc : Int) (mems : Nat → Int → UInt8) (cs : ChunkSizeArg)
    (blosc : BloscArgs) (b : BloscpackArgs) (m : MetadataArgs) (hcont : a.isFortran = false ∧ a.cContiguous = false) :
    packChangingNdarrayToBytes E lib a alloc mems cs blosc b m = packNdarrayToBytes E lib a alloc cs blosc b m := by
  have : changingNumpySource a alloc mems = plainNumpySource (sourceArray a alloc) := by
    funext c l n
    unfold changingNumpySource plainNumpySource
    simp only [if_pos hcont]
    split
    · rename_i h
      rw [h]
      exact congrArg (fun l => (⟨l, none⟩ : Yields Bytes)) (mapIdx_map _ _)
    · rename_i h
      rw [h]
  unfold packChangingNdarrayToBytes packNdarrayToBytes packChangingNdarray packNdarray
  rw [this]
  rfl

/-- C116: an array that does not change is packed as by `pack_ndarray_to_bytes`. -/
theorem C116_unchanged (E : Env Json) (lib : NumpyLib) (a : NdArray) (alloc : Int) (cs : ChunkSizeArg) (blosc : BloscArgs) (b : BloscpackArgs)
    (m : MetadataArgs) : packChangingNdarrayToBytes E lib a alloc (fun _ => a.mem) cs blosc b m = packNdarrayToBytes E lib a alloc cs blosc b m := by
  by_cases hcont : a.isFortran = false ∧ a.cContiguous = false
  · exact C116_copied E lib a alloc _ cs blosc b m hcont
  have hsrc : sourceArray a alloc = a := by unfold sourceArray; rw [if_neg hcont]
  have : changingNumpySource a alloc (fun _ => a.mem) = plainNumpySource (sourceArray a alloc) := by
    funext c l n
    unfold changingNumpySource plainNumpySource
    rw [hsrc]
    simp only [if_neg hcont]
    split
    · rename_i h
      rw [h]
      exact congrArg (fun l => (⟨l, none⟩ : Yields Bytes)) (mapIdx_map _ _)
    · rename_i h
      rw [h]
  unfold packChangingNdarrayToBytes packNdarrayToBytes packChangingNdarray packNdarray
  rw [this]
  rfl

/-- the elements of a C contiguous array are counted upwards after the first chunk was compressed -/
def Toy.counting (t : Nat) : Int → UInt8 := fun x => UInt8.ofNat (x.toNat + t)

example : (packChangingNdarrayToBytes Toy.jsonEnv Toy.numpy Toy.viewCopy 300 Toy.counting (.int 8) {} { max_app_chunks := .int 1 }
      { meta_codec := "None", max_meta_size := .int 200 }).toBool = true ∧ Toy.viewCopy.cContiguous = true := by decide +kernel

example : ((do
    let out ← packChangingNdarrayToBytes Toy.jsonEnv Toy.numpy Toy.viewCopy 300 Toy.counting (.int 8) {} { max_app_chunks := .int 1 }
      { meta_codec := "None", max_meta_size := .int 200 }
    let u ← (unpackNdarrayFromBytes Toy.jsonEnv Toy.numpy out 1000 (fun _ => 0)).1
    return (u.item [0, 1], u.item [0, 2])).toOption : Option (Bytes × Bytes)) = some ([248, 249, 250, 251], [253, 254, 255, 0]) := by
  decide +kernel

example : Toy.view.isFortran = false ∧ Toy.view.cContiguous = false := by decide

end Bloscpack
