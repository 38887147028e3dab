import Verif.Props.Refused
/-
C29: record types whose fields overlap or are not in order.
-/
namespace Bloscpack

mutual
/-- every field begins at or behind the end of the field before it, also within fields -/
def Spec.InOrder : DType → Prop
  | .scalar _ _ => True
  | .record fs _ => Spec.InOrderFrom fs 0
def Spec.InOrderFrom : Fields → Nat → Prop
  | .nil, _ => True
  | .cons _ _ offset shape t rest, pos => pos ≤ offset ∧ Spec.InOrder t ∧ Spec.InOrderFrom rest (offset + prodShape shape * t.size)
end

mutual
theorem descr_ok_iff : (d : DType) → ((∃ l, d.descr = .ok l) ↔ Spec.InOrder d)
  | .scalar s n => by simp [DType.descr, Spec.InOrder]
  | .record fs size => by
    rw [Spec.InOrder, ← fieldsDescr_ok_iff fs 0, DType.descr]
    cases h : fs.descr 0 with
    | error e => simp [Except.error_bind']
    | ok r => simp [Except.ok_bind', pure, Except.pure]
theorem fieldsDescr_ok_iff : (fs : Fields) → (pos : Nat) → ((∃ r, fs.descr pos = .ok r) ↔ Spec.InOrderFrom fs pos)
  | .nil, pos => by simp [Fields.descr, Spec.InOrderFrom]
  | .cons name title offset shape t rest, pos => by
    rw [Spec.InOrderFrom, ← descr_ok_iff t, ← fieldsDescr_ok_iff rest, Fields.descr]
    by_cases ho : offset < pos
    · have : ¬ pos ≤ offset := by omega
      simp [ho, this, throw, throwThe, MonadExceptOf.throw, bind, Except.bind]
    · have : pos ≤ offset := by omega
      rw [if_neg ho]
      simp only [this, true_and, fieldSize]
      cases h1 : t.descr with
      | error e => simp [bind, Except.bind, pure, Except.pure]
      | ok d =>
        cases h2 : rest.descr (offset + prodShape shape * t.size) with
        | error e => simp [bind, Except.bind, pure, Except.pure, h2]
        | ok r => simp [bind, Except.bind, pure, Except.pure, h2]
end

/-- **C29 (types without a description)** The metadata of an array can be made exactly if the fields of its type are in order and do
not overlap, at every level. If not, and no objects are in it, packing raises `ValueError`. -/
theorem C29_order (E : Env Json) (L : E.Laws) (lib : NumpyLib) (a : NdArray) (alloc : Int) (cs : ChunkSizeArg) (blosc : BloscArgs)
    (b : BloscpackArgs) (m : MetadataArgs) :
    ((∃ md, ndarrayMeta lib a = .ok md) ↔ Spec.InOrder a.dtype) ∧
    (¬ Spec.Mentions (pyStr "|O") a.dtype → ¬ Spec.InOrder a.dtype →
      packNdarrayToBytes E lib a alloc cs blosc b m = .error .valueError) := by
  have hiff : (∃ md, ndarrayMeta lib a = .ok md) ↔ Spec.InOrder a.dtype := by
    rw [← descr_ok_iff]
    unfold ndarrayMeta
    cases hde : a.dtype.descr with
    | error e => simp [Except.error_bind']
    | ok d => simp [Except.ok_bind', pure, Except.pure]
  refine ⟨hiff, fun ho hn => ?_⟩
  rcases packNdarray_cases E L lib a alloc cs blosc b m with ⟨h1, -⟩ | ⟨-, ⟨e, h1, h2⟩ | ⟨md', hmd', -⟩⟩
  · exact absurd ((hasObject_iff _).1 h1) ho
  · rw [h2]
    unfold ndarrayMeta at h1
    cases hde : a.dtype.descr with
    | error e' => rw [hde, Except.error_bind'] at h1; cases h1; rw [descr_error _ _ hde]
    | ok d => rw [hde, Except.ok_bind'] at h1; cases h1
  · exact absurd (hiff.1 ⟨md', hmd'⟩) hn

/-! ### examples -/

namespace Toy.Order

def f8 : DType := .scalar (pyStr "<f8") 8

/-- two fields in order with a gap, and two that overlap -/
example : Spec.InOrder (.record (.cons (pyStr "a") none 0 [] f8 (.cons (pyStr "b") none 12 [2] f8 .nil)) 32) ∧
    ¬ Spec.InOrder (.record (.cons (pyStr "a") none 0 [] f8 (.cons (pyStr "b") none 4 [] f8 .nil)) 16) := by
  constructor
  · exact ⟨by decide, trivial, by decide, trivial, trivial⟩
  · rintro ⟨-, -, h, -⟩
    revert h
    decide

end Toy.Order

end Bloscpack
