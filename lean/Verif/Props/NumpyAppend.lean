import Verif.Props.Numpy
import Verif.Props.Append
/-!
# Appending to a file that holds an array
-/
namespace Bloscpack
open Spec

/-- two adjacent stretches of memory may be written in either order -/
theorem writeMem_append_swap (mem : Int → UInt8) (p : Int) (d e : Bytes) :
    writeMem mem p (d ++ e) = writeMem (writeMem mem (p + d.length) e) p d := by
  rw [← writeMem_append]
  funext x
  by_cases h1 : p ≤ x ∧ x < p + d.length
  · rw [writeMem_outside _ _ _ _ (by omega)]
    obtain ⟨k, rfl⟩ : ∃ k : Nat, x = p + k := ⟨(x - p).toNat, by omega⟩
    have a := writeMem_inside mem p d k (by omega)
    have b := writeMem_inside (writeMem mem (p + d.length) e) p d k (by omega)
    exact Option.some.inj (a.trans b.symm)
  · rw [writeMem_outside _ p d _ h1]
    by_cases h2 : p + d.length ≤ x ∧ x < p + d.length + e.length
    · obtain ⟨k, rfl⟩ : ∃ k : Nat, x = p + d.length + k := ⟨(x - p - d.length).toNat, by omega⟩
      have a := writeMem_inside (writeMem mem p d) (p + d.length) e k (by omega)
      have b := writeMem_inside mem (p + d.length) e k (by omega)
      exact Option.some.inj (a.trans b.symm)
    · rw [writeMem_outside _ _ _ _ h2, writeMem_outside _ _ _ _ h1, writeMem_outside _ _ _ _ h2]

/-- C56 is violated also by the project's own operations: whenever `append` to a file made by `pack_ndarray` succeeds,
unpacking the array afterwards returns the same array as before, but writes the appended data as well, to the memory right
behind the array. -/
theorem C56_append_violated (E : Env Json) (L : E.Laws) (lib : NumpyLib) (a : NdArray) (hs : a.strides.length = a.shape.length)
    (hg : Spec.GapFree a.dtype) (hk : Spec.Known lib a.dtype) (alloc : Int) (cs : ChunkSizeArg) (blosc : BloscArgs) (b : BloscpackArgs)
    (m : MetadataArgs) (out : Bytes) (h : packNdarrayToBytes E lib a alloc cs blosc b m = .ok out) (new : Bytes) (args : AppendArgs)
    (k : Int) (fp : FP) (ha : appendFp E { data := new } new.length args { data := out } = (.ok k, fp)) (alloc' : Int)
    (mem : Int → UInt8) :
    ∃ u, (unpackNdarrayFromBytes E lib fp.data alloc' mem).1 = .ok u ∧ SameArray a u ∧ u.ptr = alloc' ∧
      u.mem = (unpackNdarrayFromBytes E lib fp.data alloc' mem).2 ∧
      ∀ i : Nat, i < new.length → some (u.mem (alloc' + ((prodShape a.shape * a.itemsize + i : Nat) : Int))) = new[i]? := by
  obtain ⟨md, hmd, hu⟩ := packNdarray_ok L h
  obtain ⟨md', hmd', blosc', hp⟩ : ∃ md', ndarrayMeta lib a = .ok md' ∧ ∃ blosc', packBytesToBytes E (sourceBuffer a alloc) cs (some md') blosc' b m = .ok out := by
    rcases packNdarray_cases E L lib a alloc cs blosc b m with ⟨-, h1⟩ | ⟨-, ⟨e, -, h1⟩ | ⟨md, hmd, ⟨e, -, h1⟩ | ⟨n, c, l, -, ⟨e, -, h1, -⟩ | ⟨ps, -, h1⟩⟩⟩⟩
    · rw [h1] at h; cases h
    · rw [h1] at h; cases h
    · rw [h1] at h; cases h
    · exact absurd h (h1 out)
    · rw [h1] at h
      exact ⟨md, hmd, _, h⟩
  rw [hmd] at hmd'
  cases hmd'
  obtain ⟨F, rfl, hc, hnn, hd, hm, -⟩ := packed_appendable E L _ _ _ _ _ _ _ hp
  obtain ⟨-, F', g1, g2, -, g3, g4, -⟩ := C13_append E L F hc hnn new args k fp ha
  have hr : unpackFrom E fp.data = (.ok (some md), sourceBuffer a alloc ++ new) := by
    rw [g1, unpackFrom_file L g2.toValid, g3, g4, hd, hm]
  have hlen : (sourceBuffer a alloc).length = prodShape a.shape * a.itemsize := by simp [sourceBuffer]
  rw [unpackNdarray_meta E lib a hg hk md hmd _ _ hr]
  refine ⟨_, rfl, ⟨rfl, rfl, fun idx hi => ?_⟩, rfl, rfl, fun i hi => ?_⟩
  · rw [writeMem_append_swap]
    exact sourceBuffer_item a alloc alloc' _ hs idx hi
  · show some (writeMem mem alloc' _ _) = _
    rw [← hlen, writeMem_inside _ _ _ _ (by rw [List.length_append]; omega), List.getElem?_append_right (by omega),
      Nat.add_sub_cancel_left]

-- a strided array of six elements, in three chunks; two bytes are appended and end up behind the 24 bytes of the array
example : (do
    let out ← Toy.packArray Toy.view (.int 8) 74
    let r := appendFp Toy.jsonEnv { data := [7, 8] } 2 {} ({ data := out } : FP)
    let u ← (unpackNdarrayFromBytes Toy.jsonEnv Toy.numpy r.2.data 1000 (fun _ => 0)).1
    return (r.1.toOption, u.item [1, 2], u.mem 1024, u.mem 1025, u.mem 1026)).toOption =
      some (some 1, [116, 117, 118, 119], 7, 8, 0) := by
  decide +kernel

end Bloscpack
