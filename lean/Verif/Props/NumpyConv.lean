import Verif.Lemmas.Numpy
import Verif.Examples.Numpy
/-
C41: reading dtype descriptions that old versions stored directly as JSON.
-/
namespace Bloscpack
open Spec (IsDescr IsField jsonOf jsonOfs)

theorem jsonOfs_eq_map (l : List PyLit) : jsonOfs l = l.map jsonOf := by
  induction l with
  | nil => rfl
  | cons x l ih => rw [jsonOfs, ih, List.map_cons]

theorem convList_ints (ns : List Int) : convList (jsonOfs (ns.map .int)) = .ok (ns.map .int) := by
  induction ns with
  | nil => rfl
  | cons n ns ih => rw [List.map_cons, jsonOfs, jsonOf, convList, conv, ih]; rfl

mutual
/-- C41: the JSON form of a dtype description, with its tuples turned into lists, is converted back exactly, at any nesting depth
and with sub-array shapes. -/
theorem C41_conv (d : PyLit) (h : IsDescr d) : conv (jsonOf d) = .ok d := by
  match d with
  | .str s => rw [jsonOf, conv]
  | .list [] => cases h
  | .list (f :: fs) =>
    have hf : ∀ x ∈ f :: fs, IsField x := by cases h; assumption
    have h1 := conv_field f (hf f (by simp))
    have h2 := convList_fields fs (fun x hx => hf x (by simp [hx]))
    have hl : ∃ y, jsonOf f = .arr y := by
      have := hf f (by simp)
      cases this <;> exact ⟨_, by rw [jsonOf]⟩
    obtain ⟨y, hy⟩ := hl
    rw [jsonOf, jsonOfs, hy, conv, ← hy, h1, h2]
    rfl
  | .int i => cases h
  | .tuple l => cases h
theorem conv_field (f : PyLit) (h : IsField f) : conv (jsonOf f) = .ok f := by
  match f with
  | .tuple [.str name, d] =>
    have hd : IsDescr d := by cases h; assumption
    rw [jsonOf, jsonOfs, jsonOfs, jsonOfs, jsonOf, conv, conv, convList, C41_conv d hd, convList]
    rfl
    intro x hx; cases hx
  | .tuple [.str name, d, e] =>
    have hd : IsDescr d := by cases h <;> assumption
    have he : conv (jsonOf e) = .ok e := by
      cases h with
      | vector _ _ n _ => rw [jsonOf, conv]
      | sub _ _ n ns _ =>
        rw [jsonOf, jsonOfs, jsonOf, conv, conv, convList_ints]
        rfl
        intro x hx; cases hx
    rw [jsonOf, jsonOfs, jsonOfs, jsonOfs, jsonOfs, jsonOf, conv, conv, convList, C41_conv d hd, convList, he, convList]
    rfl
    intro x hx; cases hx
theorem convList_fields (l : List PyLit) (h : ∀ x ∈ l, IsField x) : convList (jsonOfs l) = .ok l := by
  match l with
  | [] => rfl
  | x :: l =>
    rw [jsonOfs, convList, conv_field x (h x (by simp)), convList_fields l (fun y hy => h y (by simp [hy]))]
    rfl
end

theorem padding_isField (n : Nat) : IsField (padding n) := .plain _ _ (.basic _)

mutual
/-- numpy's description of a type without titles is one in the sense of C41 -/
theorem descr_isDescr (d : DType) (h : Spec.Untitled d) (x : PyLit) (hx : d.descr = .ok x) : IsDescr x := by
  match d with
  | .scalar s n => rw [DType.descr] at hx; cases hx; exact .basic s
  | .record fs size =>
    rw [Spec.Untitled] at h
    rw [DType.descr, Except.bind_ok_iff] at hx
    obtain ⟨r, hr, hx⟩ := hx
    cases hx
    obtain ⟨h1, h2⟩ := descr_areFields fs 0 h.2 r.1 r.2 hr
    generalize hl : r.1 ++ (if size > r.2 then [padding (size - r.2)] else []) = l
    have hall : ∀ f ∈ l, IsField f := by
      intro f hf
      rw [← hl] at hf
      rcases List.mem_append.1 hf with hf | hf
      · exact h1 f hf
      · split at hf
        · rw [List.mem_singleton.1 hf]; exact padding_isField _
        · cases hf
    cases l with
    | nil => exact absurd (List.append_eq_nil_iff.1 hl).1 (h2 h.1)
    | cons f fs => exact .record f fs hall
theorem descr_areFields (fs : Fields) (pos : Nat) (h : Spec.UntitledFields fs) (l : List PyLit) (q : Nat) (hx : fs.descr pos = .ok (l, q)) :
    (∀ f ∈ l, IsField f) ∧ (fs ≠ .nil → l ≠ []) := by
  match fs with
  | .nil => rw [Fields.descr] at hx; cases hx; exact ⟨by simp, by simp⟩
  | .cons name title offset shape t rest =>
    rw [Spec.UntitledFields] at h
    obtain ⟨rfl, ht, hr⟩ := h
    rw [Fields.descr] at hx
    split at hx
    · cases hx
    · obtain ⟨d, hd, hx⟩ := Except.bind_ok_iff.1 hx
      obtain ⟨r, hrr, hx⟩ := Except.bind_ok_iff.1 hx
      cases hx
      have h1 := descr_isDescr t ht d hd
      obtain ⟨h2, -⟩ := descr_areFields rest _ hr r.1 r.2 hrr
      have h3 : IsField (fieldEntry name none shape d) := by
        unfold fieldEntry
        cases shape with
        | nil => exact .plain name d h1
        | cons n ns =>
          rw [if_neg (by simp)]
          have := IsField.sub name d n (ns.map (fun n : Nat => (n : Int))) h1
          simpa [List.map_map, Function.comp_def, fieldName] using this
      refine ⟨?_, by simp⟩
      intro f hf
      rcases List.mem_append.1 hf with hf | hf
      · split at hf
        · rw [List.mem_singleton.1 hf]; exact padding_isField _
        · cases hf
      · rcases List.mem_cons.1 hf with rfl | hf
        · exact h3
        · exact h2 f hf
end

/-- a type string is not the text of a Python literal -/
theorem literalEval_byteorder (c : CodePoint) (r : PyStr) (hc : c ∈ pyStr "<>|=") : literalEval (c :: r) = none := by
  have h : c.val = 60 ∨ c.val = 62 ∨ c.val = 124 ∨ c.val = 61 := by
    simp only [pyStr, List.mem_map] at hc
    obtain ⟨x, hx, rfl⟩ := hc
    have : x = '<' ∨ x = '>' ∨ x = '|' ∨ x = '=' := by simpa using hx
    rcases this with rfl | rfl | rfl | rfl <;> decide
  unfold literalEval
  rw [List.dropWhile_cons, if_neg (by simp; omega), parseLit, if_neg (by omega), if_neg (by omega), if_neg (by omega), parseIntLit,
    if_neg (by omega), parseNatLit]
  generalize (if c.val = 48 then (0, r) else takeDecimal (c :: r) 0) = z
  rw [if_neg (by omega)]
  rfl

/-- C41, for numpy's types: the description of a type without titles, gaps or empty records, stored directly as JSON, is read back
to the same type. `dtype.str` always starts with the byte order: `<`, `>`, `|` or `=`. -/
theorem C41_old_files (lib : NumpyLib) (d : DType) (hg : Spec.GapFree d) (hk : Spec.Known lib d) (hu : Spec.Untitled d)
    (hs : ∀ s n, d = .scalar s n → ∃ c r, s = c :: r ∧ c ∈ pyStr "<>|=") :
    ∃ x, d.descr = .ok x ∧ metaDescr lib (jsonOf x) = .ok x ∧ dtypeOf lib x = .ok d := by
  obtain ⟨x, h1, h2⟩ := dtypeOf_descr lib d hg hk
  have h3 := descr_isDescr d hu x h1
  refine ⟨x, h1, ?_, h2⟩
  cases h3 with
  | basic s =>
    rw [jsonOf]
    have : literalEval s = none := by
      cases d with
      | scalar s' n => 
        rw [DType.descr] at h1
        cases h1
        obtain ⟨c, r, rfl, hc⟩ := hs _ _ rfl
        exact literalEval_byteorder c r hc
      | record fs size =>
        rw [DType.descr, Except.bind_ok_iff] at h1
        obtain ⟨r, -, h1⟩ := h1
        cases h1
    simp only [metaDescr, this, conv]
  | record f fs hf =>
    have := C41_conv _ (.record f fs hf)
    rw [jsonOf] at this ⊢
    exact this

/-- a field title is why C41 says "without field titles": the conversion turns such a field into a list, which is not a field -/
theorem C41_title_lost (t name : PyStr) (d : PyLit) : conv (jsonOf (.tuple [.tuple [.str t, .str name], d])) ≠ .ok (.tuple [.tuple [.str t, .str name], d]) := by
  intro h
  rw [jsonOf, jsonOfs, jsonOf, conv] at h
  obtain ⟨v, -, h⟩ := Except.bind_ok_iff.1 h
  obtain ⟨vs, -, h⟩ := Except.bind_ok_iff.1 h
  cases h

-- [('a', '<i4'), ('b', [('x', '<f8', (2, 3)), ('y', '|u1', 4)])]
example : IsDescr (.list [.tuple [.str (pyStr "a"), .str (pyStr "<i4")],
    .tuple [.str (pyStr "b"), .list [.tuple [.str (pyStr "x"), .str (pyStr "<f8"), .tuple [.int 2, .int 3]],
      .tuple [.str (pyStr "y"), .str (pyStr "|u1"), .int 4]]]]) := by
  refine .record _ _ fun x hx => ?_
  rcases List.mem_cons.1 hx with rfl | hx
  · exact .plain _ _ (.basic _)
  · rw [List.mem_singleton.1 hx]
    refine .plain _ _ (.record _ _ fun x hx => ?_)
    rcases List.mem_cons.1 hx with rfl | hx
    · exact .sub _ _ 2 [3] (.basic _)
    · rw [List.mem_singleton.1 hx]
      exact .vector _ _ _ (.basic _)

-- a nested type meeting the hypotheses of C41_old_files
example : let d := DType.record (.cons (pyStr "b") none 0 [] (.record (.cons (pyStr "x") none 0 [2] (.scalar (pyStr "<i4") 4) .nil) 8) .nil) 8
    Spec.GapFree d ∧ Spec.Known Toy.numpy d ∧ Spec.Untitled d := by
  refine ⟨?_, ?_, ?_⟩
  · simp [Spec.GapFree, Spec.GapFreeFrom, prodShape, DType.size]
  · simp only [Spec.Known, Spec.KnownFields]; decide
  · simp [Spec.Untitled, Spec.UntitledFields]

example : ∃ c r, pyStr "<i4" = c :: r ∧ c ∈ pyStr "<>|=" := ⟨_, _, rfl, by decide⟩

end Bloscpack
