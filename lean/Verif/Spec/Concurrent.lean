import Verif.Spec.Crash
/-
The writes of two processes to one file.
-/
namespace Bloscpack.Spec

/-- `Interleaved a b l`: the writes `a` of one process and the writes `b` of another one reach the file in the order `l`. Each process's own
writes stay in order. -/
inductive Interleaved : List (Nat × Bytes) → List (Nat × Bytes) → List (Nat × Bytes) → Prop where
  | done : Interleaved [] [] []
  | left (w : Nat × Bytes) {a b l : List (Nat × Bytes)} : Interleaved a b l → Interleaved (w :: a) b (w :: l)
  | right (w : Nat × Bytes) {a b l : List (Nat × Bytes)} : Interleaved a b l → Interleaved a (w :: b) (w :: l)

end Bloscpack.Spec
