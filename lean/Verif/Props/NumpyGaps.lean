import Verif.Spec.Gaps
import Verif.Props.Numpy
/-
C28 for arrays of records with gaps: they come back with the gaps as additional fields, or cannot be unpacked at all.
-/
namespace Bloscpack
open Spec (InShape fill fillFrom Ordered OrderedFrom Distinct DistinctFields KnowsVoid gapName voidName fieldList)

theorem fill_size (d : DType) : (fill d).size = d.size := by
  cases d <;> rw [fill] <;> rfl

theorem nameOf_gap (i : Nat) : nameOf i (.str []) = .ok (gapName i, none) := rfl

theorem fieldsOf_padding (lib : NumpyLib) (hv : KnowsVoid lib) (n : Nat) (hn : 0 < n) (l : List PyLit) (i pos : Nat) :
    fieldsOf lib (padding n :: l) i pos =
      (fieldsOf lib l (i + 1) (pos + n)).map (fun r => (.cons (gapName i) none pos [] (.scalar (voidName n) n) r.1, r.2)) := by
  have h := hv n hn
  have hd : dtypeOf lib (.str (voidName n)) = .ok (.scalar (voidName n) n) := by rw [dtypeOf, h]
  show fieldsOf lib (.tuple [.str [], .str (voidName n)] :: l) i pos = _
  rw [fieldsOf, nameOf_gap, hd]
  simp only [Except.ok_bind', fieldSize, prodShape, DType.size, Nat.one_mul]
  cases fieldsOf lib l (i + 1) (pos + n) <;> rfl

theorem fieldsOf_entry (lib : NumpyLib) (name : PyStr) (title : Option PyStr) (hn : name ≠ []) (shape : List Nat) (d : PyLit) (l : List PyLit)
    (i pos : Nat) : fieldsOf lib (fieldEntry name title shape d :: l) i pos =
      (dtypeOf lib d).bind (fun t => (fieldsOf lib l (i + 1) (pos + prodShape shape * t.size)).map
        (fun r => (.cons name title pos shape t r.1, r.2))) := by
  unfold fieldEntry
  by_cases hs : shape = []
  · subst hs
    rw [if_pos rfl, fieldsOf, nameOf_fieldName _ _ _ hn]
    simp only [Except.ok_bind', fieldSize]
    cases dtypeOf lib d with
    | error e => rfl
    | ok t => simp only [Except.ok_bind', Except.bind]; cases fieldsOf lib l (i + 1) (pos + prodShape [] * t.size) <;> rfl
  · rw [if_neg hs, fieldsOf, nameOf_fieldName _ _ _ hn, shapeOf_tuple]
    simp only [Except.ok_bind', fieldSize]
    cases dtypeOf lib d with
    | error e => rfl
    | ok t => simp only [Except.ok_bind', Except.bind]; cases fieldsOf lib l (i + 1) (pos + prodShape shape * t.size) <;> rfl

mutual
theorem dtypeOf_fill (lib : NumpyLib) (hv : KnowsVoid lib) (d : DType) (ho : Ordered d) (hk : Spec.Known lib d) :
    ∃ l, d.descr = .ok l ∧ (Distinct (fill d) → dtypeOf lib l = .ok (fill d)) ∧ (¬ Distinct (fill d) → dtypeOf lib l = .error .valueError) := by
  match d with
  | .scalar s n =>
    rw [Spec.Known] at hk
    refine ⟨.str s, by rw [DType.descr], fun _ => ?_, fun h => ?_⟩
    · rw [dtypeOf, hk, fill]
    · rw [fill, Distinct] at h; exact absurd trivial h
  | .record fs size =>
    rw [Ordered] at ho
    rw [Spec.Known] at hk
    obtain ⟨l, q, h1, h2, h3, h4⟩ := fieldsOf_fill lib hv fs 0 0 size ho hk.2
    refine ⟨.list (l ++ (if size > q then [padding (size - q)] else [])), ?_, fun h => ?_, fun h => ?_⟩
    · rw [DType.descr, h1]; rfl
    · rw [fill, Distinct] at h
      rw [dtypeOf, h3 h.2, fill]
      simp [h.1]
    · rw [fill, Distinct] at h
      by_cases hd : DistinctFields (fillFrom fs 0 0 size)
      · rw [dtypeOf, h3 hd]
        have : ¬ (fillFrom fs 0 0 size).labels.Nodup := fun hh => h ⟨hh, hd⟩
        simp only [Except.ok_bind', this, if_false]
        rfl
      · rw [dtypeOf, h4 hd]; rfl
theorem fieldsOf_fill (lib : NumpyLib) (hv : KnowsVoid lib) (fs : Fields) (i pos size : Nat) (ho : OrderedFrom fs pos size)
    (hk : Spec.KnownFields lib fs) : ∃ l q, fs.descr pos = .ok (l, q) ∧ q ≤ size ∧
      (DistinctFields (fillFrom fs i pos size) →
        fieldsOf lib (l ++ (if size > q then [padding (size - q)] else [])) i pos = .ok (fillFrom fs i pos size, size)) ∧
      (¬ DistinctFields (fillFrom fs i pos size) →
        fieldsOf lib (l ++ (if size > q then [padding (size - q)] else [])) i pos = .error .valueError) := by
  match fs with
  | .nil =>
    rw [OrderedFrom] at ho
    refine ⟨[], pos, by rw [Fields.descr], ho, fun _ => ?_, fun h => ?_⟩
    · rw [List.nil_append, fillFrom]
      by_cases hs : pos < size
      · rw [if_pos hs, if_pos hs, fieldsOf_padding lib hv _ (by omega), fieldsOf, show pos + (size - pos) = size by omega]; rfl
      · rw [if_neg hs, if_neg hs, fieldsOf, show pos = size by omega]
    · exfalso; apply h
      rw [fillFrom]
      split
      · rw [DistinctFields, Distinct, DistinctFields]; exact ⟨trivial, trivial⟩
      · rw [DistinctFields]; trivial
  | .cons name title offset shape t rest =>
    rw [OrderedFrom] at ho
    rw [Spec.KnownFields] at hk
    obtain ⟨ho, h1, h2⟩ := ho
    obtain ⟨h3, h4, h5⟩ := hk
    obtain ⟨dl, e1, e2, e3⟩ := dtypeOf_fill lib hv t h1 h4
    obtain ⟨rl, q, e4, e5, e6, e7⟩ := fieldsOf_fill lib hv rest (if pos < offset then i + 2 else i + 1) _ size h2 h5
    refine ⟨(if offset > pos then [padding (offset - pos)] else []) ++ fieldEntry name title shape dl :: rl, q, ?_, e5, ?_⟩
    · rw [Fields.descr, e1]
      simp only [fieldSize, e4, show ¬ offset < pos by omega, if_false, Except.ok_bind', Except.pure_eq]
    · generalize htail : (if size > q then [padding (size - q)] else []) = tail at *
      rw [fillFrom]
      by_cases hs : pos < offset
      · rw [if_pos hs] at e6 e7 ⊢
        rw [if_pos hs, List.cons_append, List.nil_append, List.cons_append, List.cons_append, fieldsOf_padding lib hv _ (by omega), fieldsOf_entry _ _ _ h3,
          show pos + (offset - pos) = offset by omega, DistinctFields, DistinctFields, Distinct]
        refine ⟨fun h => ?_, fun h => ?_⟩
        · rw [e2 h.2.1]
          simp only [Except.bind, fill_size]
          rw [e6 h.2.2]; rfl
        · by_cases hd : Distinct (fill t)
          · rw [e2 hd]
            simp only [Except.bind, fill_size]
            rw [e7 (fun hh => h ⟨trivial, hd, hh⟩)]; rfl
          · rw [e3 hd]; rfl
      · rw [if_neg hs] at e6 e7 ⊢
        have hp : pos = offset := by omega
        subst hp
        rw [if_neg hs, List.nil_append, List.cons_append, fieldsOf_entry _ _ _ h3, DistinctFields]
        refine ⟨fun h => ?_, fun h => ?_⟩
        · rw [e2 h.1]
          simp only [Except.bind, fill_size]
          rw [e6 h.2]; rfl
        · by_cases hd : Distinct (fill t)
          · rw [e2 hd]
            simp only [Except.bind, fill_size]
            rw [e7 (fun hh => h ⟨hd, hh⟩)]; rfl
          · rw [e3 hd]; rfl
end

/-- what `PlainNumpySink.__init__` makes of the metadata of an array -/
theorem plainNumpySink_descr (lib : NumpyLib) (a : NdArray) (l : PyLit) (hl : a.dtype.descr = .ok l) (md : Json) (hmd : ndarrayMeta lib a = .ok md)
    (alloc : Int) (mem : Int → UInt8) : plainNumpySink lib (some md) alloc mem = (dtypeOf lib l).map (fun d =>
      ⟨d, a.shape, if a.isFortran then fStrides d.size a.shape else cStrides d.size a.shape, alloc, mem⟩) := by
  rw [ndarrayMeta, hl] at hmd
  cases hmd
  have k1 : ¬ pyStr "dtype" = pyStr "container" := by decide
  have k2 : ¬ pyStr "shape" = pyStr "container" := by decide
  have k3 : ¬ pyStr "order" = pyStr "container" := by decide
  have k4 : ¬ pyStr "dtype" = pyStr "shape" := by decide
  have k5 : ¬ pyStr "dtype" = pyStr "order" := by decide
  have k6 : ¬ pyStr "shape" = pyStr "order" := by decide
  have k7 : ¬ pyStr "C" = pyStr "F" := by decide
  simp only [plainNumpySink, Json.item, lookupKey, k1, k2, k3, k4, k5, k6, if_false, if_true, metaDescr, NumpyLib.repr, literalEval_repr,
    isNumpy, shapeArg, dimsOf_ints, Except.ok_bind', beq_self_eq_true, Bool.true_eq_false]
  cases dtypeOf lib l with
  | error e => rfl
  | ok d => cases a.isFortran <;> simp [orderArg, k7, Except.ok_bind', pure, Except.pure, Except.map]

/-- C28 for types with gaps: whatever `pack_ndarray_to_bytes` returns for an array of records, with gaps or without, unpacking gives an array
of the same shape with the same bytes in each element, whose type is the same but for fields of void type in place of the gaps. Missing for
the full property: the additional fields, which make it another type (`C28_violated`), and the types whose fields have names like the
additional ones (`C28_unreadable`). -/
theorem C28_gaps_partial (E : Env Json) (L : E.Laws) (lib : NumpyLib) (hv : KnowsVoid lib) (a : NdArray) (alloc : Int) (cs : ChunkSizeArg)
    (blosc : BloscArgs) (b : BloscpackArgs) (m : MetadataArgs) (out : Bytes) (hs : a.strides.length = a.shape.length)
    (ho : Ordered a.dtype) (hk : Spec.Known lib a.dtype) (hd : Distinct (fill a.dtype))
    (h : packNdarrayToBytes E lib a alloc cs blosc b m = .ok out) (alloc' : Int) (mem : Int → UInt8) :
    ∃ r, (unpackNdarrayFromBytes E lib out alloc' mem).1 = .ok r ∧ r.dtype = fill a.dtype ∧ r.shape = a.shape ∧
      ∀ idx, InShape a.shape idx → r.item idx = a.item idx := by
  obtain ⟨md, hmd, hu⟩ := packNdarray_ok L h
  obtain ⟨l, h1, h2, -⟩ := dtypeOf_fill lib hv a.dtype ho hk
  have hsink := plainNumpySink_descr lib a l h1 md hmd alloc' mem
  rw [h2 hd] at hsink
  have hfp := unpackFP_of_ok hu
  rcases unpackNdarray_fp E lib { data := out, inMemory := true } alloc' mem with ⟨e, h1, -⟩ | ⟨md', hh, h3⟩
  · rw [hfp] at h1; cases h1
  · rw [hfp] at hh h3
    cases h3 _ rfl
    rw [hsink] at hh
    rcases hh with ⟨e, h1, -⟩ | ⟨r, h1, h2⟩
    · cases h1
    · cases h1
      have hu' : unpackNdarrayFromBytes E lib out alloc' mem = _ := h2
      refine ⟨⟨fill a.dtype, a.shape, if a.isFortran then fStrides (fill a.dtype).size a.shape else cStrides (fill a.dtype).size a.shape, alloc',
        writeMem mem alloc' (sourceBuffer a alloc)⟩, by rw [hu']; rfl, rfl, rfl, fun idx hi => ?_⟩
      have := sourceBuffer_item a alloc alloc' mem hs idx hi
      rw [← this]
      simp only [NdArray.item, NdArray.itemsize, fill_size]

/-- C28 is violated for these types: an array of records whose fields, together with the names numpy gives to the gaps, are not distinct can be
packed, but not unpacked. -/
theorem C28_unreadable (E : Env Json) (L : E.Laws) (lib : NumpyLib) (hv : KnowsVoid lib) (a : NdArray) (alloc : Int) (cs : ChunkSizeArg)
    (blosc : BloscArgs) (b : BloscpackArgs) (m : MetadataArgs) (out : Bytes)
    (ho : Ordered a.dtype) (hk : Spec.Known lib a.dtype) (hd : ¬ Distinct (fill a.dtype))
    (h : packNdarrayToBytes E lib a alloc cs blosc b m = .ok out) (alloc' : Int) (mem : Int → UInt8) :
    unpackNdarrayFromBytes E lib out alloc' mem = (.error .valueError, mem) := by
  obtain ⟨md, hmd, hu⟩ := packNdarray_ok L h
  obtain ⟨l, h1, -, h2⟩ := dtypeOf_fill lib hv a.dtype ho hk
  have hsink := plainNumpySink_descr lib a l h1 md hmd alloc' mem
  rw [h2 hd] at hsink
  have hfp := unpackFP_of_ok hu
  rcases unpackNdarray_fp E lib { data := out, inMemory := true } alloc' mem with ⟨e, h1, -⟩ | ⟨md', hh, h3⟩
  · rw [hfp] at h1; cases h1
  · rw [hfp] at hh h3
    cases h3 _ rfl
    rw [hsink] at hh
    rcases hh with ⟨e, h1, h2⟩ | ⟨r, h1, h2⟩
    · cases h1; exact h2
    · cases h1

/-- fields are between the position where they begin and the end of the record -/
theorem orderedFrom_bounds (fs : Fields) (pos size : Nat) (ho : OrderedFrom fs pos size) :
    pos ≤ size ∧ ∀ g ∈ fieldList fs, pos ≤ g.2.2.1 ∧ g.2.2.1 + prodShape g.2.2.2.1 * g.2.2.2.2.size ≤ size := by
  match fs with
  | .nil =>
    rw [OrderedFrom] at ho
    exact ⟨ho, fun g hg => by rw [fieldList] at hg; cases hg⟩
  | .cons name title offset shape t rest =>
    rw [OrderedFrom] at ho
    obtain ⟨h1, -, h2⟩ := ho
    obtain ⟨h3, h4⟩ := orderedFrom_bounds rest _ size h2
    refine ⟨by omega, fun g hg => ?_⟩
    rw [fieldList] at hg
    rcases List.mem_cons.1 hg with rfl | hg
    · exact ⟨h1, h3⟩
    · have := h4 g hg
      exact ⟨by omega, this.2⟩

/-- C28 for types with gaps: every field is still there, with its name, title, place and shape; every other field is of void type and covers
bytes of the record that belong to no field. -/
theorem C28_gaps_fields_partial (fs : Fields) (i pos size : Nat) (ho : OrderedFrom fs pos size) :
    (∀ name title offset shape t, (name, title, offset, shape, t) ∈ fieldList fs →
      (name, title, offset, shape, fill t) ∈ fieldList (fillFrom fs i pos size)) ∧
    ∀ name title offset shape d, (name, title, offset, shape, d) ∈ fieldList (fillFrom fs i pos size) →
      (∃ t, (name, title, offset, shape, t) ∈ fieldList fs ∧ d = fill t) ∨
      ∃ n j, 0 < n ∧ name = gapName j ∧ title = none ∧ shape = [] ∧ d = .scalar (voidName n) n ∧ pos ≤ offset ∧ offset + n ≤ size ∧
        ∀ g ∈ fieldList fs, g.2.2.1 + prodShape g.2.2.2.1 * g.2.2.2.2.size ≤ offset ∨ offset + n ≤ g.2.2.1 := by
  match fs with
  | .nil =>
    rw [fillFrom]
    refine ⟨fun _ _ _ _ _ h => ?_, fun name title offset shape d h => ?_⟩
    · rw [fieldList] at h; cases h
    split at h
    · rw [fieldList, fieldList] at h
      cases List.mem_singleton.1 h
      refine .inr ⟨size - pos, i, by omega, rfl, rfl, rfl, rfl, Nat.le_refl _, by omega, fun g hg => ?_⟩
      rw [fieldList] at hg; cases hg
    · rw [fieldList] at h; cases h
  | .cons nm ti off sh ty rest =>
    rw [OrderedFrom] at ho
    obtain ⟨h1, -, h2⟩ := ho
    have hb := orderedFrom_bounds rest _ size h2
    have common : ∀ k, (∀ name title offset shape t, (name, title, offset, shape, t) ∈ fieldList (.cons nm ti off sh ty rest) →
        (name, title, offset, shape, fill t) ∈ (nm, ti, off, sh, fill ty) :: fieldList (fillFrom rest k (off + prodShape sh * ty.size) size)) ∧
      ∀ name title offset shape d, (name, title, offset, shape, d) ∈ (nm, ti, off, sh, fill ty) ::
          fieldList (fillFrom rest k (off + prodShape sh * ty.size) size) →
        (∃ t, (name, title, offset, shape, t) ∈ fieldList (.cons nm ti off sh ty rest) ∧ d = fill t) ∨
        ∃ n j, 0 < n ∧ name = gapName j ∧ title = none ∧ shape = [] ∧ d = .scalar (voidName n) n ∧ pos ≤ offset ∧ offset + n ≤ size ∧
          ∀ g ∈ fieldList (.cons nm ti off sh ty rest), g.2.2.1 + prodShape g.2.2.2.1 * g.2.2.2.2.size ≤ offset ∨ offset + n ≤ g.2.2.1 := by
      intro k
      obtain ⟨i1, i2⟩ := C28_gaps_fields_partial rest k (off + prodShape sh * ty.size) size h2
      refine ⟨fun name title offset shape t h => ?_, fun name title offset shape d h => ?_⟩
      · rw [fieldList] at h
        rcases List.mem_cons.1 h with h | h
        · cases h; exact List.mem_cons_self
        · exact List.mem_cons_of_mem _ (i1 _ _ _ _ _ h)
      · rcases List.mem_cons.1 h with h | h
        · cases h
          exact .inl ⟨ty, by rw [fieldList]; exact List.mem_cons_self, rfl⟩
        · rcases i2 _ _ _ _ _ h with ⟨t, ht, e⟩ | ⟨n, j, a1, a2, a3, a4, a5, a6, a7, a8⟩
          · exact .inl ⟨t, by rw [fieldList]; exact List.mem_cons_of_mem _ ht, e⟩
          · refine .inr ⟨n, j, a1, a2, a3, a4, a5, by omega, a7, fun g hg => ?_⟩
            rw [fieldList] at hg
            rcases List.mem_cons.1 hg with rfl | hg
            · exact .inl a6
            · exact a8 g hg
    rw [fillFrom]
    split
    · rename_i hs
      obtain ⟨c1, c2⟩ := common (i + 2)
      have hl : ∀ d x, fieldList (.cons (gapName i) none pos [] d (.cons nm ti off sh (fill ty) x)) =
          (gapName i, none, pos, [], d) :: (nm, ti, off, sh, fill ty) :: fieldList x := fun d x => by rw [fieldList, fieldList]
      rw [hl]
      refine ⟨fun name title offset shape t h => List.mem_cons_of_mem _ (c1 _ _ _ _ _ h), fun name title offset shape d h => ?_⟩
      rcases List.mem_cons.1 h with h | h
      · cases h
        refine .inr ⟨off - pos, i, by omega, rfl, rfl, rfl, rfl, Nat.le_refl _, by have := hb.1; omega, fun g hg => ?_⟩
        rw [fieldList] at hg
        rcases List.mem_cons.1 hg with rfl | hg
        · right; show pos + (off - pos) ≤ off; omega
        · right; have := (hb.2 g hg).1; omega
      · exact c2 _ _ _ _ _ h
    · rw [fieldList]
      exact common (i + 1)

/-! ### examples -/

/-- a numpy that knows the toy types and all void types -/
def Toy.voidNumpy : NumpyLib where
  printable := Toy.numpy.printable
  scalar := fun s => if s.take 2 = pyStr "|V" then some (s, (s.drop 2).foldl (fun v c => 10 * v + (c.val - 48)) 0) else Toy.numpy.scalar s

theorem Toy.knowsVoid : KnowsVoid Toy.voidNumpy := by
  intro n hn
  have h1 : (voidName n).take 2 = pyStr "|V" := by
    unfold voidName
    rw [show 2 = (pyStr "|V").length from by decide, List.take_left]
  have h2 : (voidName n).drop 2 = Spec.decimalStr n := by
    unfold voidName
    rw [show 2 = (pyStr "|V").length from by decide, List.drop_left]
  have h3 : (Spec.decimalStr n).foldl (fun v c => 10 * v + (c.val - 48)) 0 = n := by
    have hv := Nat.ofDigitChars_toDigits (b := 10) (n := n) (by omega) (by omega)
    rw [Nat.ofDigitChars_eq_foldl] at hv
    unfold Spec.decimalStr
    rw [List.foldl_map]
    have hm : ∀ (l : List Char) (v : Nat), (∀ c ∈ l, c.isDigit = true) →
        l.foldl (fun v c => 10 * v + ((chr c.toNat).val - 48)) v = l.foldl (fun v c => 10 * v + (c.toNat - 48)) v := by
      intro l
      induction l with
      | nil => intros; rfl
      | cons c l ih =>
        intro v hl
        have hc : (chr c.toNat).val = c.toNat := by
          have := hl c List.mem_cons_self
          simp only [Char.isDigit, Bool.and_eq_true, decide_eq_true_eq] at this
          have h9 : c.toNat ≤ 57 := this.2
          show c.toNat % 1114112 = c.toNat
          omega
        rw [List.foldl_cons, List.foldl_cons, hc]
        exact ih _ (fun d hd => hl d (List.mem_cons_of_mem _ hd))
    rw [hm _ _ (fun c hc => Nat.isDigit_of_mem_toDigits (by omega) (by omega) hc)]
    exact hv
  show (if (voidName n).take 2 = pyStr "|V" then
      some (voidName n, ((voidName n).drop 2).foldl (fun v c => 10 * v + (c.val - 48)) 0) else Toy.numpy.scalar (voidName n)) = _
  rw [if_pos h1, h2, h3]

/-- three aligned records: an unsigned byte `a`, three bytes of nothing, and an integer `b`; `a` is called `name` -/
def Toy.alignedType (name : String) : DType :=
  .record (.cons (pyStr name) none 0 [] (.scalar (pyStr "|u1") 1) (.cons (pyStr "b") none 4 [] (.scalar (pyStr "<i4") 4) .nil)) 10

def Toy.alignedArray (name : String) : NdArray := ⟨Toy.alignedType name, [2], [10], 50, fun x => UInt8.ofNat x.toNat⟩

theorem Toy.aligned_ok (name : String) (h : name = "a" ∨ name = "f1") : (Toy.alignedArray name).strides.length = (Toy.alignedArray name).shape.length ∧
    Ordered (Toy.alignedArray name).dtype ∧ Spec.Known Toy.voidNumpy (Toy.alignedArray name).dtype := by
  refine ⟨rfl, ?_, ?_⟩
  · simp [Toy.alignedArray, Toy.alignedType, Ordered, OrderedFrom, prodShape, DType.size]
  · simp only [Toy.alignedArray, Toy.alignedType, Spec.Known, Spec.KnownFields]
    rcases h with rfl | rfl <;> decide

/-- what becomes of the type: two more fields -/
theorem Toy.aligned_fill (name : String) : fill (Toy.alignedType name) = .record
    (.cons (pyStr name) none 0 [] (.scalar (pyStr "|u1") 1) (.cons (pyStr "f1") none 1 [] (.scalar (pyStr "|V3") 3)
      (.cons (pyStr "b") none 4 [] (.scalar (pyStr "<i4") 4) (.cons (pyStr "f3") none 8 [] (.scalar (pyStr "|V2") 2) .nil)))) 10 := by
  have h1 : gapName 1 = pyStr "f1" := by decide
  have h2 : gapName 3 = pyStr "f3" := by decide
  have h3 : voidName 3 = pyStr "|V3" := by decide
  have h4 : voidName 2 = pyStr "|V2" := by decide
  simp [Toy.alignedType, fill, fillFrom, prodShape, DType.size, h1, h2, h3, h4]

-- the names are distinct, unless the first field is called `f1`
example : Distinct (fill (Toy.alignedType "a")) ∧ ¬ Distinct (fill (Toy.alignedType "f1")) := by
  rw [Toy.aligned_fill, Toy.aligned_fill]
  simp only [Distinct, DistinctFields, Fields.labels]
  decide

-- both arrays are packed; one is unpacked, the other not
example :
    let pack := fun name => packNdarrayToBytes Toy.jsonEnv Toy.voidNumpy (Toy.alignedArray name) 300 (.int 20) {} { max_app_chunks := .int 1 }
      { meta_codec := "None", max_meta_size := .int 200 }
    let names := fun name => do
      let out ← pack name
      let u ← (unpackNdarrayFromBytes Toy.jsonEnv Toy.voidNumpy out 1000 (fun _ => 0)).1
      return (match u.dtype with | .record fs _ => fs.labels | _ => [])
    (pack "f1").toBool = true ∧ (names "a").toOption = some [pyStr "a", pyStr "f1", pyStr "b", pyStr "f3"] ∧ (names "f1").toOption = none := by
  decide +kernel

end Bloscpack
