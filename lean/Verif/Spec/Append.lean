import Verif.Model.Append
/-
Small specifications for appending.
-/
namespace Bloscpack

/-- The settings an append compresses with: what the caller gave, otherwise the typesize stored in the file and the
documented defaults (clevel 7, shuffle, blosclz). -/
def AppendArgs.filled (x : AppendArgs) (h : BloscpackHeader) : BloscArgs :=
  { typesize := x.typesize.getD h.typesize, clevel := x.clevel.getD 7, shuffle := x.shuffle.getD 1,
    cname := x.cname.getD "blosclz" }

/-- `N` is the least number of chunks of `c` bytes that hold `n` bytes -/
def Spec.ChunkCount (c n N : Int) : Prop := c * (N - 1) < n ∧ n ≤ c * N

end Bloscpack
