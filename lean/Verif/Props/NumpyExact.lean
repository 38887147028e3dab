import Verif.Props.NumpyFiles
import Verif.Props.Raises
import Verif.Props.Verified
import Verif.Spec.ArrayMetadata
import Verif.Lemmas.Literal

/-! C93: what unpacking an array accepts, what it writes, and what it raises, for every byte string. -/
namespace Bloscpack

theorem lookupKey_ok_iff (key : String) (l : List (PyStr × Json)) (v : Json) : lookupKey (pyStr key) l = .ok v ↔ Spec.Entry l key v := by
  unfold Spec.Entry
  constructor
  · intro h
    rcases lookupKey_cases (pyStr key) l with ⟨h1, -⟩ | ⟨w, pre, post, h1, h2, h3⟩
    · rw [h] at h1; cases h1
    · rw [h] at h1; cases h1
      exact ⟨pre, post, h2, h3⟩
  · rintro ⟨pre, post, rfl, h⟩
    induction pre with
    | nil => simp [lookupKey]
    | cons e pre ih =>
      have : e.1 ≠ pyStr key := h e (by simp)
      rw [List.cons_append]
      unfold lookupKey
      rw [if_neg this]
      exact ih (fun e he => h e (by simp [he]))

theorem dimsOf_ok_iff (l : List Json) (shape : List Nat) : dimsOf l = .ok shape ↔ l = shape.map (fun n : Nat => .int n) := by
  constructor
  · intro h
    induction l generalizing shape with
    | nil => cases h; rfl
    | cons j l ih =>
      cases j with
      | int n =>
        unfold dimsOf at h
        obtain ⟨ns, h1, h2⟩ := Except.bind_ok_iff.1 h
        split at h2
        · cases h2
          rw [ih ns h1, List.map_cons, Int.toNat_of_nonneg (by assumption)]
        · cases h2
      | _ => cases h
  · rintro rfl
    exact dimsOf_ints shape

theorem shapeArg_ok_iff (sh : Json) (shape : List Nat) : shapeArg sh = .ok shape ↔ Spec.ShapeEntry shape sh := by
  constructor
  · intro h
    cases sh with
    | int n =>
      replace h : (if 0 ≤ n then (.ok [n.toNat] : Except Err (List Nat)) else .error .valueError) = .ok shape := h
      split at h
      · rename_i hn
        cases h
        obtain ⟨k, rfl⟩ := Int.eq_ofNat_of_zero_le hn
        exact .number k
      · cases h
    | arr l =>
      rw [(dimsOf_ok_iff l shape).1 h]
      exact .list shape
    | _ => cases h
  · intro h
    cases h with
    | list => exact dimsOf_ints shape
    | number n => simp [shapeArg]

theorem orderArg_ok_iff (x : Json) (fortran : Bool) : orderArg x = .ok fortran ↔ x = .str (pyStr (if fortran then "F" else "C")) := by
  cases x with
  | str s =>
    unfold orderArg
    by_cases h1 : s = pyStr "F"
    · subst h1
      cases fortran
      · simp [show pyStr "F" ≠ pyStr "C" from by decide]
      · simp
    · by_cases h2 : s = pyStr "C"
      · subst h2
        cases fortran
        · simp [h1]
        · simp [h1]
      · cases fortran <;> simp [h1, h2]
  | _ => simp [orderArg]

theorem isNumpy_iff (x : Json) : isNumpy x = true ↔ x = .str (pyStr "numpy") := by
  cases x <;> simp [isNumpy]

theorem conv_tuple (x : Json) (l : List Json) (h : ∀ y, x ≠ .arr y) :
    conv (.arr (x :: l)) = (do let v ← conv x; let vs ← convList l; return .tuple (v :: vs)) := by
  unfold Bloscpack.conv
  cases x with
  | arr y => exact absurd rfl (h y)
  | _ => rfl

mutual
theorem conv_ok (x : Json) (d : PyLit) (h : conv x = .ok d) : Spec.OldEntry x d := by
  match x with
  | .str s => rw [conv] at h; cases h; exact .str s
  | .int i => rw [conv] at h; cases h; exact .int i
  | .arr [] => rw [conv] at h; cases h
  | .arr (.arr y :: l) =>
    rw [conv] at h
    obtain ⟨v, h1, h⟩ := Except.bind_ok_iff.1 h
    obtain ⟨vs, h2, h⟩ := Except.bind_ok_iff.1 h
    cases h
    exact .list y l v vs (conv_ok _ _ h1) (convList_ok _ _ h2)
  | .arr (.null :: l) | .arr (.bool _ :: l) | .arr (.int _ :: l) | .arr (.str _ :: l) | .arr (.obj _ :: l) =>
    rw [conv_tuple _ _ (by intro y h; cases h)] at h
    obtain ⟨v, h1, h⟩ := Except.bind_ok_iff.1 h
    obtain ⟨vs, h2, h⟩ := Except.bind_ok_iff.1 h
    cases h
    exact .tuple _ l v vs (by intro y h; cases h) (conv_ok _ _ h1) (convList_ok _ _ h2)
  | .null => simp [conv] at h
  | .bool b => simp [conv] at h
  | .obj l => simp [conv] at h
theorem convList_ok (l : List Json) (ds : List PyLit) (h : convList l = .ok ds) : Spec.OldEntries l ds := by
  match l with
  | [] => cases h; exact .none
  | x :: l =>
    rw [convList] at h
    obtain ⟨v, h1, h⟩ := Except.bind_ok_iff.1 h
    obtain ⟨vs, h2, h⟩ := Except.bind_ok_iff.1 h
    cases h
    exact .more x l v vs (conv_ok _ _ h1) (convList_ok _ _ h2)
end

mutual
theorem conv_of (x : Json) (d : PyLit) (h : Spec.OldEntry x d) : conv x = .ok d := by
  cases h with
  | str s => rw [conv]
  | int i => rw [conv]
  | list x l v vs h1 h2 => rw [conv, conv_of _ _ h1, convList_of _ _ h2]; rfl
  | tuple x l v vs hx h1 h2 =>
    have e1 := conv_of _ _ h1
    have e2 := convList_of _ _ h2
    rw [conv_tuple _ _ hx, e1, e2]; rfl
theorem convList_of (l : List Json) (ds : List PyLit) (h : Spec.OldEntries l ds) : convList l = .ok ds := by
  cases h with
  | none => rfl
  | more x l v vs h1 h2 => rw [convList, conv_of _ _ h1, convList_of _ _ h2]; rfl
end

theorem metaDescr_ok_iff (lib : NumpyLib) (x : Json) (d : PyLit) : metaDescr lib x = .ok d ↔ Spec.DtypeEntry x d := by
  cases x with
  | str s =>
    cases hl : literalEval s with
    | some y =>
      have hs := (literalEval_iff s y).1 hl
      have e : metaDescr lib (.str s) = .ok y := by unfold metaDescr; simp only [hl]
      rw [e]
      constructor
      · intro h; cases h; exact .text s _ hs
      · intro h
        cases h with
        | text _ _ h' => rw [(literalEval_iff s d).2 h'] at hl; cases hl; rfl
        | old _ _ h' _ => exact absurd hs (h' s y rfl)
    | none =>
      have e : metaDescr lib (.str s) = conv (.str s) := by unfold metaDescr; simp only [hl]
      have hn : ∀ y, ¬ Spec.Spells s y := by intro y hy; rw [(literalEval_iff s y).2 hy] at hl; cases hl
      rw [e]
      constructor
      · intro h
        exact .old _ _ (by intro s' d' h'; cases h'; exact hn d') (conv_ok _ _ h)
      · intro h
        cases h with
        | text _ _ h' => exact absurd h' (hn d)
        | old _ _ _ h' => exact conv_of _ _ h'
  | _ =>
    constructor
    · intro h
      exact .old _ _ (by intro s' d' h'; cases h') (conv_ok _ _ h)
    · intro h
      cases h with
      | old _ _ _ h' => exact conv_of _ _ h'

/-- what metadata the sink for arrays accepts -/
theorem plainNumpySink_ok_iff (lib : NumpyLib) (md : Option Json) (alloc : Int) (mem : Int → UInt8) (a : NdArray) :
    plainNumpySink lib md alloc mem = .ok a ↔
      ∃ dtype shape fortran, Spec.DescribesArray lib md dtype shape fortran ∧ a = Spec.arrayAt dtype shape fortran alloc mem := by
  constructor
  · intro h
    cases md with
    | none => cases h
    | some j =>
      unfold plainNumpySink at h
      simp only at h
      obtain ⟨c, h1, h⟩ := Except.bind_ok_iff.1 h
      cases j with
      | obj l =>
        by_cases hc : isNumpy c = false
        · rw [if_pos hc] at h; cases h
        · rw [if_neg hc] at h
          have hc : c = .str (pyStr "numpy") := (isNumpy_iff c).1 (by simpa using hc)
          subst hc
          obtain ⟨-, -, h⟩ := Except.bind_ok_iff.1 h
          obtain ⟨x, h2, h⟩ := Except.bind_ok_iff.1 h
          obtain ⟨d, h3, h⟩ := Except.bind_ok_iff.1 h
          obtain ⟨sh, h4, h⟩ := Except.bind_ok_iff.1 h
          obtain ⟨dtype, h6, h⟩ := Except.bind_ok_iff.1 h
          obtain ⟨o, h7, h⟩ := Except.bind_ok_iff.1 h
          obtain ⟨shape, h5, h⟩ := Except.bind_ok_iff.1 h
          obtain ⟨fortran, h8, h⟩ := Except.bind_ok_iff.1 h
          cases h
          refine ⟨dtype, shape, fortran, ⟨l, x, d, sh, rfl, (lookupKey_ok_iff _ _ _).1 h1, (lookupKey_ok_iff _ _ _).1 h2, (metaDescr_ok_iff _ _ _).1 h3, h6,
            (lookupKey_ok_iff _ _ _).1 h4, (shapeArg_ok_iff _ _).1 h5, ?_⟩, rfl⟩
          rw [(orderArg_ok_iff _ _).1 h8] at h7
          exact (lookupKey_ok_iff _ _ _).1 h7
      | _ => cases h1
  · rintro ⟨dtype, shape, fortran, ⟨l, x, d, sh, rfl, h1, h2, h3, h4, h5, h6, h7⟩, rfl⟩
    have h1 := (lookupKey_ok_iff _ _ _).2 h1
    have h2 := (lookupKey_ok_iff _ _ _).2 h2
    have h3 := (metaDescr_ok_iff lib _ _).2 h3
    have h5 := (lookupKey_ok_iff _ _ _).2 h5
    have h6 := (shapeArg_ok_iff _ _).2 h6
    have h7 := (lookupKey_ok_iff _ _ _).2 h7
    have h8 := (orderArg_ok_iff _ fortran).2 rfl
    unfold plainNumpySink
    simp only [Json.item, h1, h2, h3, h4, h5, h6, h7, h8, Except.ok_bind', isNumpy, BEq.rfl]
    rfl

theorem writeMem_holds (mem : Int → UInt8) (p : Int) (data : Bytes) : Spec.Holds mem (writeMem mem p data) p data :=
  ⟨fun _ hk => writeMem_inside _ _ _ _ hk, fun _ hx => writeMem_outside _ _ _ _ hx⟩

theorem holds_unique {mem mem' : Int → UInt8} {p : Int} {data : Bytes} (h : Spec.Holds mem mem' p data) : mem' = writeMem mem p data := by
  have hw := writeMem_holds mem p data
  funext x
  by_cases hx : p ≤ x ∧ x < p + data.length
  · have e : x = p + ((x - p).toNat : Int) := by omega
    have hk : (x - p).toNat < data.length := by omega
    have := (h.1 _ hk).trans (hw.1 _ hk).symm
    rw [← e] at this
    exact Option.some.inj this
  · rw [h.2 x hx, hw.2 x hx]

/-- the exact outcome, in terms of what unpacking bytes gives -/
theorem unpackNdarray_exact (E : Env Json) (lib : NumpyLib) (input : FP) (alloc : Int) (mem mem' : Int → UInt8) (a : NdArray) :
    unpackNdarray E lib input alloc mem = (.ok a, mem') ↔
      ∃ data md dtype shape fortran, unpackFP E input = (.ok md, data) ∧ Spec.DescribesArray lib md dtype shape fortran ∧
        Spec.Holds mem mem' alloc data ∧ a = Spec.arrayAt dtype shape fortran alloc mem' := by
  constructor
  · intro h
    rcases unpackNdarray_fp E lib input alloc mem with ⟨e, -, h1⟩ | ⟨md, ⟨e, -, h1⟩ | ⟨a0, h0, h1⟩, h2⟩
    · rw [h] at h1; cases h1
    · rw [h] at h1; cases h1
    · rw [h] at h1
      generalize hr : unpackFP E input = r at h1 h2
      obtain ⟨r, o⟩ := r
      cases r with
      | error e => cases h1
      | ok md' =>
        have := h2 md' rfl
        subst this
        obtain ⟨dtype, shape, fortran, g1, rfl⟩ := (plainNumpySink_ok_iff _ _ _ _ _).1 h0
        injection h1 with e1 e2
        injection e1 with e1
        subst e1 e2
        exact ⟨o, md', dtype, shape, fortran, rfl, g1, writeMem_holds _ _ _, rfl⟩
  · rintro ⟨data, md, dtype, shape, fortran, h1, h2, h3, rfl⟩
    have h0 := (plainNumpySink_ok_iff lib md alloc mem (Spec.arrayAt dtype shape fortran alloc mem)).2 ⟨_, _, _, h2, rfl⟩
    rcases unpackNdarray_fp E lib input alloc mem with ⟨e, g1, -⟩ | ⟨md', hcase, g2⟩
    · rw [h1] at g1; cases g1
    · rw [h1] at hcase g2
      have := g2 md rfl
      subst this
      rcases hcase with ⟨e, g3, -⟩ | ⟨a0, g3, g4⟩
      · rw [h0] at g3; cases g3
      · rw [h0] at g3
        cases g3
        rw [g4, holds_unique h3]
        rfl

/-- C93: an array is unpacked from a byte string if and only if the byte string can be unpacked to some data and to metadata that describe an
array. The array is the one described, at the address it was given, and the memory holds exactly the data from there on. -/
theorem C93_memory (E : Env Json) (lib : NumpyLib) (x : Bytes) (alloc : Int) (mem mem' : Int → UInt8) (a : NdArray) :
    unpackNdarrayFromBytes E lib x alloc mem = (.ok a, mem') ↔
      ∃ data md dtype shape fortran, unpackBytesFromBytes E x = .ok (data, md) ∧ Spec.DescribesArray lib md dtype shape fortran ∧
        Spec.Holds mem mem' alloc data ∧ a = Spec.arrayAt dtype shape fortran alloc mem' := by
  have hu : ∀ data md, unpackBytesFromBytes E x = .ok (data, md) ↔ unpackFP E ({ data := x, inMemory := true } : FP) = (.ok md, data) := by
    intro data md
    unfold unpackBytesFromBytes
    generalize unpackFP E ({ data := x, inMemory := true } : FP) = r
    obtain ⟨r, o⟩ := r
    cases r <;> simp [and_comm]
  unfold unpackNdarrayFromBytes
  rw [unpackNdarray_exact]
  simp only [hu]

/-- C93: the same for files. -/
theorem C93_file (E : Env Json) (lib : NumpyLib) (fs : FS) (name : String) (alloc : Int) (mem mem' : Int → UInt8) (a : NdArray) :
    unpackNdarrayFromFile E lib fs name alloc mem = (.ok a, mem') ↔
      ∃ data md dtype shape fortran, unpackBytesFromFile E fs name = .ok (data, md) ∧ Spec.DescribesArray lib md dtype shape fortran ∧
        Spec.Holds mem mem' alloc data ∧ a = Spec.arrayAt dtype shape fortran alloc mem' := by
  cases hx : fs.files name with
  | none => simp [unpackNdarrayFromFile, unpackBytesFromFile, FS.openRead, hx]
  | some x =>
    have hu : ∀ data md, unpackBytesFromFile E fs name = .ok (data, md) ↔ unpackFP E ({ data := x } : FP) = (.ok md, data) := by
      intro data md
      unfold unpackBytesFromFile unpackFrom FS.openRead
      rw [hx]
      simp only
      generalize unpackFP E ({ data := x } : FP) = r
      obtain ⟨r, o⟩ := r
      cases r <;> simp [and_comm]
    have hn : unpackNdarrayFromFile E lib fs name alloc mem = unpackNdarray E lib { data := x } alloc mem := by
      unfold unpackNdarrayFromFile FS.openRead; rw [hx]
    rw [hn, unpackNdarray_exact]
    simp only [hu]

theorem nameOf_raises (i : Nat) (x : PyLit) : ERaises (· ∈ [Err.typeError, .valueError]) (nameOf i x) := by
  unfold nameOf
  split
  · exact .ok _
  · exact .ok _
  · split
    · exact .error (by simp)
    · exact .ok _
  · exact .error (by simp)

theorem shapeOf_raises (x : PyLit) : ERaises (· ∈ [Err.typeError, .valueError]) (shapeOf x) := by
  unfold shapeOf
  split
  · split
    · exact .ok _
    · exact .error (by simp)
  · rename_i l
    induction l with
    | nil => exact .ok _
    | cons x l ih =>
      rw [List.mapM_cons]
      refine .bind ?_ (fun _ _ => .bind ih (fun _ _ => .ok _))
      split
      · split
        · exact .ok _
        · exact .error (by simp)
      · exact .error (by simp)
  · exact .error (by simp)

mutual
theorem dtypeOf_raises (lib : NumpyLib) : ∀ x, ERaises (· ∈ [Err.typeError, .valueError]) (dtypeOf lib x)
  | .str s => by
    rw [dtypeOf]
    split
    · exact .ok _
    · exact .error (by simp)
  | .list l => by
    rw [dtypeOf]
    refine .bind (fieldsOf_raises lib l 0 0) (fun r _ => ?_)
    split
    · exact .ok _
    · exact .error (by simp)
  | .int _ => by rw [dtypeOf]; exact .error (by simp)
  | .tuple _ => by rw [dtypeOf]; exact .error (by simp)
theorem fieldsOf_raises (lib : NumpyLib) : ∀ l i pos, ERaises (· ∈ [Err.typeError, .valueError]) (fieldsOf lib l i pos)
  | [], _, _ => by rw [fieldsOf]; exact .ok _
  | .tuple [n, d] :: rest, i, pos => by
    rw [fieldsOf]
    exact .bind (nameOf_raises _ _) (fun _ _ => .bind (dtypeOf_raises lib d) (fun _ _ => .bind (fieldsOf_raises lib rest _ _) (fun _ _ => .ok _)))
  | .tuple [n, d, sh] :: rest, i, pos => by
    rw [fieldsOf]
    exact .bind (nameOf_raises _ _) (fun _ _ => .bind (dtypeOf_raises lib d) (fun _ _ => .bind (shapeOf_raises sh) (fun _ _ =>
      .bind (fieldsOf_raises lib rest _ _) (fun _ _ => .ok _))))
  | .tuple [] :: rest, i, pos => by rw [fieldsOf] <;> first | exact .error (by simp) | simp
  | .tuple [_] :: rest, i, pos => by rw [fieldsOf] <;> first | exact .error (by simp) | simp
  | .tuple (_ :: _ :: _ :: _ :: _) :: rest, i, pos => by rw [fieldsOf] <;> first | exact .error (by simp) | simp
  | .str _ :: rest, i, pos => by rw [fieldsOf] <;> first | exact .error (by simp) | simp
  | .int _ :: rest, i, pos => by rw [fieldsOf] <;> first | exact .error (by simp) | simp
  | .list _ :: rest, i, pos => by rw [fieldsOf] <;> first | exact .error (by simp) | simp
end

theorem ERaises.mem {α : Type} {l l' : List Err} {x : Except Err α} (h : ERaises (· ∈ l) x) (hl : ∀ e ∈ l, e ∈ l') : ERaises (· ∈ l') x :=
  h.mono hl

mutual
theorem conv_raises : ∀ x, ERaises (· ∈ [Err.typeError, .indexError]) (conv x)
  | .str _ => by rw [conv]; exact .ok _
  | .int _ => by rw [conv]; exact .ok _
  | .arr [] => by rw [conv]; exact .error (by simp)
  | .arr (.arr x :: l) => by
    rw [conv]; exact .bind (conv_raises (.arr x)) (fun _ _ => .bind (convList_raises l) (fun _ _ => .ok _))
  | .arr (.str s :: l) => by
    rw [conv] <;> first | exact .bind (conv_raises (.str s)) (fun _ _ => .bind (convList_raises l) (fun _ _ => .ok _)) | simp
  | .arr (.int s :: l) => by
    rw [conv] <;> first | exact .bind (conv_raises (.int s)) (fun _ _ => .bind (convList_raises l) (fun _ _ => .ok _)) | simp
  | .arr (.float s :: l) => by
    rw [conv] <;> first | exact .bind (conv_raises (.float s)) (fun _ _ => .bind (convList_raises l) (fun _ _ => .ok _)) | simp
  | .arr (.bool s :: l) => by
    rw [conv] <;> first | exact .bind (conv_raises (.bool s)) (fun _ _ => .bind (convList_raises l) (fun _ _ => .ok _)) | simp
  | .arr (.null :: l) => by
    rw [conv] <;> first | exact .bind (conv_raises .null) (fun _ _ => .bind (convList_raises l) (fun _ _ => .ok _)) | simp
  | .arr (.obj s :: l) => by
    rw [conv] <;> first | exact .bind (conv_raises (.obj s)) (fun _ _ => .bind (convList_raises l) (fun _ _ => .ok _)) | simp
  | .float _ => by rw [conv] <;> first | exact .error (by simp) | simp
  | .bool _ => by rw [conv] <;> first | exact .error (by simp) | simp
  | .null => by rw [conv] <;> first | exact .error (by simp) | simp
  | .obj _ => by rw [conv] <;> first | exact .error (by simp) | simp
theorem convList_raises : ∀ l, ERaises (· ∈ [Err.typeError, .indexError]) (convList l)
  | [] => by rw [convList]; exact .ok _
  | x :: l => by rw [convList]; exact .bind (conv_raises x) (fun _ _ => .bind (convList_raises l) (fun _ _ => .ok _))
end

theorem item_raises (key : String) (md : Json) : ERaises (· ∈ [Err.keyError, .typeError]) (md.item key) := by
  cases md with
  | obj l =>
    rcases lookupKey_cases (pyStr key) l with ⟨h1, -⟩ | ⟨w, pre, post, h1, -⟩
    · rw [Json.item, h1]; exact .error (by simp)
    · rw [Json.item, h1]; exact .ok _
  | _ => exact .error (by simp)

theorem dimsOf_raises (l : List Json) : ERaises (· ∈ [Err.typeError, .valueError]) (dimsOf l) := by
  induction l with
  | nil => exact .ok _
  | cons j l ih =>
    cases j with
    | int n =>
      rw [dimsOf]
      refine .bind ih (fun _ _ => ?_)
      split
      · exact .ok _
      · exact .error (by simp)
    | _ => exact .error (by simp)

/-- what the sink for arrays raises -/
theorem plainNumpySink_raises (lib : NumpyLib) (md : Option Json) (alloc : Int) (mem : Int → UInt8) :
    ERaises (· ∈ [Err.notANumpyArray, .keyError, .typeError, .valueError, .indexError]) (plainNumpySink lib md alloc mem) := by
  cases md with
  | none => exact .error (by simp)
  | some md =>
    unfold plainNumpySink
    simp only
    refine .bind ((item_raises _ _).mem (by simp)) (fun c _ => ?_)
    split
    · exact .bind (.error (by simp)) (fun _ h => nomatch h)
    refine .bind ((item_raises _ _).mem (by simp)) (fun x _ => .bind ?_ (fun d _ => .bind ((item_raises _ _).mem (by simp)) (fun sh _ =>
      .bind ((dtypeOf_raises lib d).mem (by simp)) (fun dtype _ => .bind ((item_raises _ _).mem (by simp)) (fun o _ =>
        .bind ?_ (fun shape _ => .bind ?_ (fun _ _ => .ok _)))))))
    · unfold metaDescr
      split
      · split
        · exact .ok _
        · exact (conv_raises _).mem (by simp)
      · exact (conv_raises _).mem (by simp)
    · unfold shapeArg
      split
      · split
        · exact .ok _
        · exact .error (by simp)
      · exact (dimsOf_raises _).mem (by simp)
      · exact .error (by simp)
    · unfold orderArg
      split
      · split
        · exact .ok _
        · split
          · exact .ok _
          · exact .error (by simp)
      · exact .error (by simp)

/-- C93, failures: if unpacking an array from a byte string fails, unpacking bytes from it fails with the same exception; or else the metadata
of the file do not describe an array, then the exception is one of five, and the memory was not touched. -/
theorem C93_refused (E : Env Json) (lib : NumpyLib) (x : Bytes) (alloc : Int) (mem mem' : Int → UInt8) (e : Err)
    (h : unpackNdarrayFromBytes E lib x alloc mem = (.error e, mem')) :
    unpackBytesFromBytes E x = .error e ∨
    (mem' = mem ∧ e ∈ [Err.notANumpyArray, .keyError, .typeError, .valueError, .indexError] ∧
      ∀ data md dtype shape fortran, unpackBytesFromBytes E x = .ok (data, md) → ¬ Spec.DescribesArray lib md dtype shape fortran) := by
  rcases unpackNdarray_cases E lib x alloc mem with ⟨e', h0, h1⟩ | ⟨md, ⟨e', h0, h1⟩ | ⟨a, h0, h1⟩, h2⟩
  · rw [h] at h1; cases h1
    left
    unfold unpackBytesFromBytes
    rw [h0]
  · rw [h] at h1; cases h1
    refine .inr ⟨rfl, plainNumpySink_raises lib md alloc mem _ h0, ?_⟩
    intro data md' dtype shape fortran hu hd
    have : md' = md := by
      apply h2
      unfold unpackBytesFromBytes at hu
      revert hu
      generalize unpackFP E ({ data := x, inMemory := true } : FP) = r
      obtain ⟨r, o⟩ := r
      cases r <;> simp
    subst this
    rw [(plainNumpySink_ok_iff lib md' alloc mem _).2 ⟨_, _, _, hd, rfl⟩] at h0
    cases h0
  · rw [h] at h1
    left
    unfold unpackBytesFromBytes
    revert h1
    generalize unpackFP E ({ data := x, inMemory := true } : FP) = r
    obtain ⟨r, o⟩ := r
    cases r with
    | error e' => intro h1; injection h1 with h1 _; cases h1; rfl
    | ok m => intro h1; injection h1 with h1 _; cases h1

/-- C93, failures: what a failed unpacking of an array leaves in memory is what a failed unpacking of the same file leaves in the output file. -/
theorem C93_left_behind (E : Env Json) (lib : NumpyLib) (fs : FS) (i o : String) (hw : fs.canWrite o = true) (hne : i ≠ o) (alloc : Int)
    (mem mem' : Int → UInt8) (e : Err) (h : unpackNdarrayFromFile E lib fs i alloc mem = (.error e, mem')) :
    mem' = mem ∨
    ∃ out, Spec.Holds mem mem' alloc out ∧ (unpackFileFromFile E fs i o).1 = .error e ∧ (unpackFileFromFile E fs i o).2.files o = some out := by
  cases hx : fs.files i with
  | none =>
    left
    unfold unpackNdarrayFromFile FS.openRead at h
    rw [hx] at h
    cases h; rfl
  | some x =>
    have hn : unpackNdarrayFromFile E lib fs i alloc mem = unpackNdarray E lib { data := x } alloc mem := by
      unfold unpackNdarrayFromFile FS.openRead; rw [hx]
    rw [hn] at h
    rcases unpackNdarray_fp E lib { data := x } alloc mem with ⟨e', h0, h1⟩ | ⟨md, ⟨e', h0, h1⟩ | ⟨a, h0, h1⟩, h2⟩
    · rw [h] at h1; cases h1; exact .inl rfl
    · rw [h] at h1; cases h1; exact .inl rfl
    · right
      rw [h] at h1
      have hcur : (fs.put o []).current i = x := by simp [FS.current, FS.put, hne, hx]
      unfold unpackFileFromFile FS.getsize FS.openRead FS.openWrite
      rw [hx, if_pos hw]
      simp only
      rw [hcur]
      unfold unpackFrom
      revert h1
      generalize unpackFP E ({ data := x } : FP) = r
      obtain ⟨r, out⟩ := r
      cases r with
      | ok m => intro h1; injection h1 with h1 _; cases h1
      | error e' =>
        intro h1
        injection h1 with h1 h3
        cases h1
        subst h3
        exact ⟨out, writeMem_holds _ _ _, rfl, by simp [FS.put]⟩

/-- metadata written by hand, with one number for the shape: accepted; with a negative number, with no order, or with a damaged chunk: refused -/
example : let md : Json → List (PyStr × Json) → Json := fun sh rest => .obj ([(pyStr "x", .null), (pyStr "container", .str (pyStr "numpy")),
      (pyStr "dtype", .str (pyStr "'<i4'")), (pyStr "shape", sh)] ++ rest)
    let order := [(pyStr "order", Json.str (pyStr "C"))]
    let f : Json → (Bytes → Bytes) → Except Err (List Bytes) := fun md change =>
      match packBytesToBytes Toy.jsonEnv [1, 2, 3, 4, 5, 6, 7, 8] (.int 3) (some md) {} { max_app_chunks := .int 1 } { max_meta_size := .int 200 } with
      | .error e => .error e
      | .ok out => (unpackNdarrayFromBytes Toy.jsonEnv Toy.numpy (change out) 1000 (fun _ => 0)).1.map (fun a => [a.item [0], a.item [1]])
    [f (md (.int 2) order) id, f (md (.int (-2)) order) id, f (md (.int 2) []) id, f (md (.int 2) order) (fun x => x.dropLast ++ [0])] =
      [.ok [[1, 2, 3, 4], [5, 6, 7, 8]], .error .valueError, .error .keyError, .error .checksumMismatch] := by
  decide +kernel

end Bloscpack
