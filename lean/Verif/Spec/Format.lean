import Verif.Spec.Header
/-
The layout of a bloscpack file after the header, transcribed from README.rst ("Description of the offsets entries",
"Description of the chunk format", "Overview"): independent of the reading and writing functions.
-/
namespace Bloscpack.Spec

/-- The chunks as stored: each compressed chunk followed by its digest (`digest` is the chosen checksum function, empty
result for no checksum). -/
def records (digest : List UInt8 → List UInt8) (chunks : List (List UInt8)) : List UInt8 :=
  chunks.flatMap (fun c => c ++ digest c)

/-- The positions of the chunks when the first starts at `start`. -/
def positions (digest : List UInt8 → List UInt8) : Nat → List (List UInt8) → List Int
  | _, [] => []
  | start, c :: cs => (start : Int) :: positions digest (start + c.length + (digest c).length) cs

/-- The offsets section: one little-endian int64 per entry. -/
def int64s (l : List Int) : List UInt8 := l.flatMap (leBytes 8)

end Bloscpack.Spec
