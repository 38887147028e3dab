import Verif.Spec.History
/-!
What C97 speaks of: histories of changes that use the settings the archive was packed with, and numbers of chunks.
-/
namespace Bloscpack.Spec
variable {μ : Type}

/-- the arguments of an append mean the settings `a` for an archive packed with these settings: the type size is taken from the archive
unless it is given, other settings that are not given have their defaults -/
def Means (x : AppendArgs) (a : BloscArgs) : Prop :=
  (x.typesize = none ∨ x.typesize = some a.typesize) ∧ x.clevel.getD 7 = a.clevel ∧ x.shuffle.getD 1 = a.shuffle ∧ x.cname.getD "blosclz" = a.cname

/-- all appends of the history that succeeded used the settings `a` -/
def SameSettings (log : List (Op μ × Bool)) (a : BloscArgs) : Prop := ∀ new x, (.append new x, true) ∈ log → Means x a

/-- all rewrites of the metadata that succeeded named codec and level, as the defaults do -/
def CodecsGiven (log : List (Op μ × Bool)) : Prop := ∀ md x, (.rewrite md x, true) ∈ log → x.codec.isSome ∧ x.level.isSome

/-- no rewrite of the metadata in the history succeeded -/
def NoRewrites (log : List (Op μ × Bool)) : Prop := ∀ md x, (.rewrite md x, true) ∉ log

/-- the arguments for the metadata after a rewrite with arguments `x`: what is not given stays, the room is the `r` bytes there are -/
def rewritten (r : Nat) (m : MetadataArgs) (x : RewriteArgs) : MetadataArgs :=
  { magic_format := x.magic_format.getD m.magic_format, meta_checksum := x.checksum.getD m.meta_checksum,
    meta_codec := x.codec.getD m.meta_codec, meta_level := x.level.getD m.meta_level, max_meta_size := .int r }

/-- the arguments for the metadata that a history of changes amounts to -/
def settled (r : Nat) (m : MetadataArgs) : List (Op μ × Bool) → MetadataArgs
  | [] => m
  | (.rewrite _ x, true) :: log => settled r (rewritten r m x) log
  | _ :: log => settled r m log

/-- how many chunks of `c` bytes hold `n` bytes; there is always one -/
def chunksOf (c n : Nat) : Nat := max 1 ((n + c - 1) / c)

/-- compressing more data never gives less compressed data -/
def LongerIsLonger (E : Env μ) (a : BloscArgs) : Prop :=
  ∀ x y cx cxy, E.compress x a = .ok cx → E.compress (x ++ y) a = .ok cxy → cx.length ≤ cxy.length

end Bloscpack.Spec
