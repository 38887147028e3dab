import Verif.Model.Env
/-
What it means that a sequence of bytes is a sequence of acceptable chunks.
-/
namespace Bloscpack.Spec
variable {μ : Type}

/-- `Chunks E digest stream n out`: the stream starts with `n` chunks that decompress to pieces of `out`, each followed
by its correct digest. Only the very last one may lack its digest, if the stream ends right there. -/
inductive Chunks (E : Env μ) (digest : Bytes → Bytes) : Bytes → Nat → Bytes → Prop
  | done (rest : Bytes) : Chunks E digest rest 0 []
  | chunk (c d rest : Bytes) (n : Nat) (out : Bytes) : E.decompress c = .ok d → Chunks E digest rest n out →
      Chunks E digest (c ++ digest c ++ rest) (n + 1) (d ++ out)
  | undigested (c d : Bytes) : E.decompress c = .ok d → Chunks E digest c 1 d

/-- The chunks of a packed file: after some `front`, the compressed chunk-size slices of the data, each followed by its
digest, and nothing else. -/
structure Layout (E : Env μ) (out data : Bytes) (chunkSize : Nat) (a : BloscArgs) (digest : Bytes → Bytes) (front : Bytes)
    (chunks : List Bytes) : Prop where
  bytes : out = front ++ chunks.flatMap (fun c => c ++ digest c)
  chunk : ∀ i (hi : i < chunks.length),
    E.compress (slice data (i * chunkSize) ((i + 1) * chunkSize)) a = .ok chunks[i]

/-- position of the first byte of chunk `i` -/
def Layout.start (digest : Bytes → Bytes) (front : Bytes) (chunks : List Bytes) (i : Nat) : Nat :=
  front.length + ((chunks.take i).flatMap (fun c => c ++ digest c)).length

end Bloscpack.Spec
