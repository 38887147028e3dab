import Verif.Spec.Numpy
import Verif.Lemmas.Prim
/-
Memory, strides and dtypes.
-/
namespace Bloscpack
open Spec (InShape)

/-! ### memory -/

@[simp] theorem readMem_length (mem : Int → UInt8) (p : Int) (n : Nat) : (readMem mem p n).length = n := by simp [readMem]

theorem readMem_getElem? (mem : Int → UInt8) (p : Int) (n k : Nat) (h : k < n) : (readMem mem p n)[k]? = some (mem (p + k)) := by
  simp [readMem, h]

theorem readMem_add (mem : Int → UInt8) (p : Int) (m n : Nat) : readMem mem p (m + n) = readMem mem p m ++ readMem mem (p + m) n := by
  apply List.ext_getElem?
  intro i
  by_cases h1 : i < m
  · rw [List.getElem?_append_left (by simpa using h1), readMem_getElem? _ _ _ _ (by omega), readMem_getElem? _ _ _ _ h1]
  · rw [List.getElem?_append_right (by simpa using h1), readMem_length]
    by_cases h2 : i < m + n
    · rw [readMem_getElem? _ _ _ _ h2, readMem_getElem? _ _ _ _ (by omega)]
      congr 2; omega
    · rw [List.getElem?_eq_none (by simpa using h2), List.getElem?_eq_none (by simp; omega)]

theorem readMem_slice (mem : Int → UInt8) (p : Int) (N o k : Nat) (h : o + k ≤ N) :
    slice (readMem mem p N) o (o + k) = readMem mem (p + o) k := by
  obtain ⟨r, rfl⟩ := Nat.exists_eq_add_of_le h
  rw [show o + k + r = o + (k + r) by omega, readMem_add, slice_append_right _ _ _ _ (by simp), readMem_length, Nat.sub_self,
    Nat.add_sub_cancel_left, readMem_add, slice_append_left _ _ _ _ (by simp), slice_all _ _ (by simp)]

theorem readMem_writeMem (mem : Int → UInt8) (p : Int) (bs : Bytes) : readMem (writeMem mem p bs) p bs.length = bs := by
  apply List.ext_getElem?
  intro i
  by_cases h : i < bs.length
  · rw [readMem_getElem? _ _ _ _ h, writeMem, if_pos (by omega)]
    have : (p + i - p).toNat = i := by omega
    rw [this, List.getElem?_eq_getElem h, List.getD_eq_getElem?_getD, List.getElem?_eq_getElem h, Option.getD_some]
  · rw [List.getElem?_eq_none (by simpa using h), List.getElem?_eq_none (by omega)]

theorem writeMem_outside (mem : Int → UInt8) (p : Int) (bs : Bytes) (x : Int) (h : ¬ (p ≤ x ∧ x < p + bs.length)) :
    writeMem mem p bs x = mem x := by rw [writeMem, if_neg h]

theorem writeMem_inside (mem : Int → UInt8) (p : Int) (bs : Bytes) (k : Nat) (h : k < bs.length) :
    some (writeMem mem p bs (p + k)) = bs[k]? := by
  have := congrArg (fun l => l[k]?) (readMem_writeMem mem p bs)
  rw [← this, readMem_getElem? _ _ _ _ h]

theorem writeMem_append (mem : Int → UInt8) (p : Int) (a b : Bytes) :
    writeMem (writeMem mem p a) (p + a.length) b = writeMem mem p (a ++ b) := by
  funext x
  unfold writeMem
  simp only [List.length_append]
  by_cases h1 : p + a.length ≤ x ∧ x < p + a.length + b.length
  · rw [if_pos h1, if_pos (by omega)]
    rw [List.getD_eq_getElem?_getD, List.getD_eq_getElem?_getD, List.getElem?_append_right (by omega)]
    congr 2; omega
  · rw [if_neg h1]
    by_cases h2 : p ≤ x ∧ x < p + a.length
    · rw [if_pos h2, if_pos (by omega), List.getD_eq_getElem?_getD, List.getD_eq_getElem?_getD, List.getElem?_append_left (by omega)]
    · rw [if_neg h2, if_neg (by omega)]

theorem writeMem_nil (mem : Int → UInt8) (p : Int) : writeMem mem p [] = mem := by
  funext x
  exact writeMem_outside _ _ _ _ (by simp)

/-! ### strides -/

theorem InShape.no_zero {shape idx : List Nat} (h : InShape shape idx) : shape.contains 0 = false := by
  induction shape generalizing idx with
  | nil => rfl
  | cons n ns ih =>
    cases idx with
    | nil => exact h.elim
    | cons i is =>
      obtain ⟨h1, h2⟩ := h
      simp only [List.contains_cons, ih h2, Bool.or_false, beq_eq_false_iff_ne, ne_eq]
      omega

theorem cOffset (item : Nat) (shape idx : List Nat) (h : InShape shape idx) :
    ∃ o : Nat, strideOffset (cStrides item shape) idx = o ∧ o + item ≤ item * prodShape shape := by
  induction shape generalizing idx with
  | nil => cases idx with
    | nil => exact ⟨0, rfl, by simp [prodShape]⟩
    | cons _ _ => exact h.elim
  | cons n ns ih => cases idx with
    | nil => exact h.elim
    | cons i is =>
      obtain ⟨h1, h2⟩ := h
      obtain ⟨o, h3, h4⟩ := ih is h2
      refine ⟨item * prodShape ns * i + o, ?_, ?_⟩
      · rw [cStrides, strideOffset, h3]; simp
      · rw [prodShape]
        have : item * prodShape ns * (i + 1) ≤ item * (n * prodShape ns) := by
          rw [Nat.mul_comm n, ← Nat.mul_assoc]
          exact Nat.mul_le_mul_left _ (by omega)
        rw [Nat.mul_succ] at this
        omega

theorem fOffset (item : Nat) (shape idx : List Nat) (h : InShape shape idx) :
    ∃ o : Nat, strideOffset (fStrides item shape) idx = o ∧ o + item ≤ item * prodShape shape := by
  induction shape generalizing idx item with
  | nil => cases idx with
    | nil => exact ⟨0, rfl, by simp [prodShape]⟩
    | cons _ _ => exact h.elim
  | cons n ns ih => cases idx with
    | nil => exact h.elim
    | cons i is =>
      obtain ⟨h1, h2⟩ := h
      obtain ⟨o, h3, h4⟩ := ih (item * n) is h2
      refine ⟨item * i + o, ?_, ?_⟩
      · rw [fStrides, strideOffset, h3]; simp
      · rw [prodShape, ← Nat.mul_assoc]
        have : item * (i + 1) ≤ item * n := Nat.mul_le_mul_left _ (by omega)
        rw [Nat.mul_succ] at this
        omega

theorem cStridesOk_offset (item : Nat) (shape : List Nat) (strides : List Int) (idx : List Nat) (hl : strides.length = shape.length)
    (h : InShape shape idx) (hs : cStridesOk item shape strides = true) :
    strideOffset strides idx = strideOffset (cStrides item shape) idx := by
  induction shape generalizing idx strides with
  | nil => cases strides with
    | nil => rfl
    | cons _ _ => cases hl
  | cons n ns ih => cases strides with
    | nil => cases hl
    | cons s ss => cases idx with
      | nil => rfl
      | cons i is =>
        obtain ⟨h1, h2⟩ := h
        simp only [cStridesOk, Bool.and_eq_true, Bool.or_eq_true, beq_iff_eq] at hs
        rw [strideOffset, cStrides, strideOffset, ih ss is (by simpa using hl) h2 hs.2]
        rcases hs.1 with h3 | h3
        · have : i = 0 := by omega
          subst this; simp
        · rw [h3]

theorem fStridesOk_offset (item : Nat) (shape : List Nat) (strides : List Int) (idx : List Nat) (hl : strides.length = shape.length)
    (h : InShape shape idx) (hs : fStridesOk item shape strides = true) :
    strideOffset strides idx = strideOffset (fStrides item shape) idx := by
  induction shape generalizing idx strides item with
  | nil => cases strides with
    | nil => rfl
    | cons _ _ => cases hl
  | cons n ns ih => cases strides with
    | nil => cases hl
    | cons s ss => cases idx with
      | nil => rfl
      | cons i is =>
        obtain ⟨h1, h2⟩ := h
        simp only [fStridesOk, Bool.and_eq_true, Bool.or_eq_true, beq_iff_eq] at hs
        rw [strideOffset, fStrides, strideOffset, ih _ ss is (by simpa using hl) h2 hs.2]
        rcases hs.1 with h3 | h3
        · have : i = 0 := by omega
          subst this; simp
        · rw [h3]

/-! ### the copy in C order -/

theorem flatMap_range_length {α : Type} (f : Nat → List α) (B n : Nat) (hf : ∀ i, (f i).length = B) :
    ((List.range n).flatMap f).length = n * B := by
  induction n with
  | zero => simp
  | succ n ih => rw [List.range_succ, List.flatMap_append, List.length_append, ih]; simp [hf, Nat.succ_mul]

theorem slice_flatMap_range {α : Type} (f : Nat → List α) (B n i o k : Nat) (hf : ∀ i, (f i).length = B) (hi : i < n) (ho : o + k ≤ B) :
    slice ((List.range n).flatMap f) (B * i + o) (B * i + o + k) = slice (f i) o (o + k) := by
  induction n with
  | zero => omega
  | succ n ih =>
    rw [List.range_succ, List.flatMap_append]
    simp only [List.flatMap_cons, List.flatMap_nil, List.append_nil]
    have hl := flatMap_range_length f B n hf
    by_cases h : i < n
    · have : B * (i + 1) ≤ n * B := by rw [Nat.mul_comm n]; exact Nat.mul_le_mul_left _ h
      rw [Nat.mul_succ] at this
      rw [slice_append_left _ _ _ _ (by rw [hl]; omega), ih h]
    · have : i = n := by omega
      subst this
      rw [Nat.mul_comm] at hl
      rw [slice_append_right _ _ _ _ (by rw [hl]; omega), hl]
      congr 1 <;> omega

theorem indices_flatMap_cons {α : Type} (n : Nat) (ns : List Nat) (g : List Nat → List α) :
    (indices (n :: ns)).flatMap g = (List.range n).flatMap (fun i => (indices ns).flatMap (fun r => g (i :: r))) := by
  simp [indices, List.flatMap_assoc, List.flatMap_map]

theorem indices_flatMap_length {α : Type} (S : Nat) (shape : List Nat) (g : List Nat → List α) (hg : ∀ idx, (g idx).length = S) :
    ((indices shape).flatMap g).length = S * prodShape shape := by
  induction shape generalizing g with
  | nil => simp [indices, prodShape, hg]
  | cons n ns ih =>
    rw [indices_flatMap_cons, flatMap_range_length _ (S * prodShape ns) _ (fun i => ih _ (fun r => hg _)), prodShape, Nat.mul_left_comm]

theorem indices_flatMap_slice {α : Type} (S : Nat) (shape idx : List Nat) (g : List Nat → List α) (hg : ∀ idx, (g idx).length = S)
    (h : InShape shape idx) (o : Nat) (ho : strideOffset (cStrides S shape) idx = o) :
    slice ((indices shape).flatMap g) o (o + S) = g idx := by
  induction shape generalizing idx g o with
  | nil => cases idx with
    | nil =>
      have : o = 0 := by simpa [cStrides, strideOffset] using ho.symm
      subst this
      simp [indices, slice, ← hg []]
    | cons _ _ => exact h.elim
  | cons n ns ih => cases idx with
    | nil => exact h.elim
    | cons i is =>
      obtain ⟨h1, h2⟩ := h
      obtain ⟨o', h3, h4⟩ := cOffset S ns is h2
      rw [cStrides, strideOffset, h3] at ho
      have : o = S * prodShape ns * i + o' := by
        have h5 : ((S * prodShape ns : Nat) : Int) * i + o' = ((S * prodShape ns * i + o' : Nat) : Int) := by simp
        rw [h5] at ho; omega
      subst this
      rw [indices_flatMap_cons, slice_flatMap_range _ (S * prodShape ns) _ _ _ _ (fun i => indices_flatMap_length S ns _ (fun r => hg _)) h1 h4]
      exact ih is _ (fun r => hg _) h2 o' h3

/-! ### dtypes -/

theorem shapeOf_tuple (shape : List Nat) : shapeOf (.tuple (shape.map (fun n : Nat => .int n))) = .ok shape := by
  unfold shapeOf
  induction shape with
  | nil => rfl
  | cons n ns ih =>
    simp only [List.map_cons, List.mapM_cons] at ih ⊢
    rw [ih]
    simp

theorem nameOf_fieldName (i : Nat) (name : PyStr) (title : Option PyStr) (hn : name ≠ []) :
    nameOf i (fieldName name title) = .ok (name, title) := by
  cases title with
  | none =>
    cases name with
    | nil => exact absurd rfl hn
    | cons c cs => rfl
  | some t => simp [fieldName, nameOf, hn]

mutual
theorem dtypeOf_descr (lib : NumpyLib) (d : DType) (hg : Spec.GapFree d) (hk : Spec.Known lib d) :
    ∃ l, d.descr = .ok l ∧ dtypeOf lib l = .ok d := by
  match d with
  | .scalar s n =>
    refine ⟨.str s, by rw [DType.descr], ?_⟩
    rw [Spec.Known] at hk
    rw [dtypeOf, hk]
  | .record fs size =>
    rw [Spec.GapFree] at hg
    rw [Spec.Known] at hk
    obtain ⟨l, h1, h2⟩ := fieldsOf_descr lib fs 0 size 0 hg hk.2
    refine ⟨.list l, ?_, ?_⟩
    · rw [DType.descr, h1]
      simp
    · rw [dtypeOf, h2]
      simp [hk.1]
theorem fieldsOf_descr (lib : NumpyLib) (fs : Fields) (pos size i : Nat) (hg : Spec.GapFreeFrom fs pos size)
    (hk : Spec.KnownFields lib fs) : ∃ l, fs.descr pos = .ok (l, size) ∧ fieldsOf lib l i pos = .ok (fs, size) := by
  match fs with
  | .nil =>
    rw [Spec.GapFreeFrom] at hg
    subst hg
    exact ⟨[], by rw [Fields.descr], by rw [fieldsOf]⟩
  | .cons name title offset shape t rest =>
    rw [Spec.GapFreeFrom] at hg
    rw [Spec.KnownFields] at hk
    obtain ⟨rfl, h1, h2⟩ := hg
    obtain ⟨h3, h4, h5⟩ := hk
    obtain ⟨dl, e1, e2⟩ := dtypeOf_descr lib t h1 h4
    obtain ⟨rl, e3, e4⟩ := fieldsOf_descr lib rest _ size (i + 1) h2 h5
    refine ⟨fieldEntry name title shape dl :: rl, ?_, ?_⟩
    · rw [Fields.descr, e1]
      simp only [fieldSize, e3, Nat.lt_irrefl, if_false, Except.ok_bind', Except.pure_eq]
      simp
    · unfold fieldEntry
      by_cases hs : shape = []
      · subst hs
        rw [if_pos rfl, fieldsOf, nameOf_fieldName _ _ _ h3, e2]
        simp only [Except.ok_bind', fieldSize, e4, Except.pure_eq]
      · rw [if_neg hs, fieldsOf, nameOf_fieldName _ _ _ h3, e2, shapeOf_tuple]
        simp only [Except.ok_bind', fieldSize, e4, Except.pure_eq]
end

mutual
/-- numpy makes dtypes without gaps from lists -/
theorem dtypeOf_gapFree (lib : NumpyLib) (x : PyLit) (d : DType) (h : dtypeOf lib x = .ok d) : Spec.GapFree d := by
  match x with
  | .str s =>
    rw [dtypeOf] at h
    split at h
    · cases h; rw [Spec.GapFree]; trivial
    · cases h
  | .int _ => rw [dtypeOf] at h; cases h
  | .tuple _ => rw [dtypeOf] at h; cases h
  | .list l =>
    rw [dtypeOf, Except.bind_ok_iff] at h
    obtain ⟨r, h1, h2⟩ := h
    split at h2
    · cases h2
      rw [Spec.GapFree]
      exact fieldsOf_gapFree lib l 0 0 r.1 r.2 h1
    · cases h2
theorem fieldsOf_gapFree (lib : NumpyLib) (l : List PyLit) (i pos : Nat) (fs : Fields) (size : Nat)
    (h : fieldsOf lib l i pos = .ok (fs, size)) : Spec.GapFreeFrom fs pos size := by
  match l with
  | [] => rw [fieldsOf] at h; cases h; rw [Spec.GapFreeFrom]
  | .tuple [n, d] :: rest =>
    rw [fieldsOf, Except.bind_ok_iff] at h
    obtain ⟨nm, -, h⟩ := h
    rw [Except.bind_ok_iff] at h
    obtain ⟨t, h2, h⟩ := h
    rw [Except.bind_ok_iff] at h
    obtain ⟨r, h3, h⟩ := h
    cases h
    rw [Spec.GapFreeFrom]
    exact ⟨rfl, dtypeOf_gapFree lib d t h2, fieldsOf_gapFree lib rest _ _ _ _ h3⟩
  | .tuple [n, d, sh] :: rest =>
    rw [fieldsOf, Except.bind_ok_iff] at h
    obtain ⟨nm, -, h⟩ := h
    rw [Except.bind_ok_iff] at h
    obtain ⟨t, h2, h⟩ := h
    rw [Except.bind_ok_iff] at h
    obtain ⟨shape, -, h⟩ := h
    rw [Except.bind_ok_iff] at h
    obtain ⟨r, h3, h⟩ := h
    cases h
    rw [Spec.GapFreeFrom]
    exact ⟨rfl, dtypeOf_gapFree lib d t h2, fieldsOf_gapFree lib rest _ _ _ _ h3⟩
  | .tuple [] :: _ => simp [fieldsOf] at h
  | .tuple [_] :: _ => simp [fieldsOf] at h
  | .tuple (_ :: _ :: _ :: _ :: _) :: _ => simp [fieldsOf] at h
  | .str _ :: _ => simp [fieldsOf] at h
  | .int _ :: _ => simp [fieldsOf] at h
  | .list _ :: _ => simp [fieldsOf] at h
end

end Bloscpack
