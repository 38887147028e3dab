import Verif.Lemmas.Race
import Verif.Props.NumpyDisk
/-
C109: several processes that pack the same data to the same file at the same time.
-/
namespace Bloscpack
variable {μ : Type}

/-- C109: processes that pack the same data, with the same settings, to the same file, each in its own time, and so that their writes are mixed
byte by byte, leave the file that one of them alone writes. If packing does not fail, unpacking it gives the data and the metadata. -/
theorem C109_same (E : Env μ) (L : E.Laws) (data : Bytes) (cs : ChunkSizeArg) (md : Option μ) (a : BloscArgs) (b : BloscpackArgs) (m : MetadataArgs)
    (r : Except Err MetadataArgs) (fp : FP) (h : packBytes E data cs md a b m = (r, some fp)) (before : Bytes) (schedule : List Nat)
    (hne : schedule ≠ []) (hdone : ∀ p k, (Spec.race (fun _ => Spec.byteWrites fp.log) before schedule).written p = some k → k = (Spec.byteWrites fp.log).length) :
    (Spec.race (fun _ => Spec.byteWrites fp.log) before schedule).file = fp.data ∧
    (r.toBool = true → unpackBytesFromBytes E (Spec.race (fun _ => Spec.byteWrites fp.log) before schedule).file = .ok (data, md)) := by
  have he : (Spec.race (fun _ => Spec.byteWrites fp.log) before schedule).file = fp.data := by
    rw [Spec.race_same _ before schedule hne hdone, replay_byteWrites, (pack_crash_cases L h).1]
  refine ⟨he, fun hr => ?_⟩
  cases hm : r with
  | error e => rw [hm] at hr; cases hr
  | ok m' =>
    rw [hm] at h
    obtain ⟨fp', -, -, -, -, k1, -, -, -, -, -, -, -, -, -, k11⟩ := packBytes_ok L h
    cases k1
    rw [he]
    refine C01_roundtrip E L data cs md a b m _ ?_
    rw [packBytesToBytes_eq, h]
    simp only [if_neg k11]

/-- C109 for arrays -/
theorem C109_arrays (E : Env Json) (L : E.Laws) (lib : NumpyLib) (a : NdArray) (alloc : Int) (cs : ChunkSizeArg) (blosc : BloscArgs)
    (b : BloscpackArgs) (m : MetadataArgs) (hs : a.strides.length = a.shape.length) (hg : Spec.GapFree a.dtype) (hk : Spec.Known lib a.dtype)
    (r : Except Err (BloscArgs × MetadataArgs)) (s : FPSink)
    (h : packNdarray E lib a alloc (compressedFPSink E) cs blosc b m { fp := { data := [] } } = (r, s)) (before : Bytes) (schedule : List Nat)
    (hne : schedule ≠ [])
    (hdone : ∀ p k, (Spec.race (fun _ => Spec.byteWrites s.fp.log) before schedule).written p = some k → k = (Spec.byteWrites s.fp.log).length)
    (alloc' : Int) (mem : Int → UInt8) :
    (Spec.race (fun _ => Spec.byteWrites s.fp.log) before schedule).file = s.fp.data ∧
    (r.toBool = true → ∃ u, (unpackNdarray E lib { data := (Spec.race (fun _ => Spec.byteWrites s.fp.log) before schedule).file } alloc' mem).1 = .ok u ∧
      Spec.SameArray a u) := by
  obtain ⟨w, h1, h2⟩ := (Sim.packNdarray E lib a alloc cs blosc b m).1 ({ fp := { data := [] } } : FPSink)
  rw [h] at h1 h2
  have h1 : s.fp.log = w := h1
  have h2 : s.fp.data = Spec.replay [] w := h2
  have he : (Spec.race (fun _ => Spec.byteWrites s.fp.log) before schedule).file = s.fp.data := by
    rw [Spec.race_same _ before schedule hne hdone, replay_byteWrites, h2, h1]
  refine ⟨he, fun hr => ?_⟩
  have hd := C107_pack E L lib a alloc cs blosc b m hs hg hk [] _ _ rfl alloc' mem
  obtain ⟨s', g1, g2⟩ := hd.2.2.2 (by simp)
  rw [h] at g1
  cases g1
  rw [he, ← g2]
  exact hd.2.1 hr

/-! ### cases -/

namespace RaceExamples

/-- the writes of packing three bytes in two chunks, and of packing three other bytes -/
def log₁ : List (Nat × Bytes) := ((packBytes Toy.env [1, 2, 3] (.int 2) none {} { max_app_chunks := .int 1 } {}).2.map (·.log)).getD []
def log₂ : List (Nat × Bytes) := ((packBytes Toy.env [7, 8, 9] (.int 2) none {} { max_app_chunks := .int 1 } {}).2.map (·.log)).getD []

/-- three processes: the first one has written 50 bytes when the second one opens the file; the third one takes turns with the other two -/
def turns : List Nat := List.replicate 51 1 ++ [2] ++ (List.replicate 40 2) ++ (List.replicate 200 [3, 1, 2]).flatten

example : Spec.byteWrites log₁ ≠ [] ∧ turns ≠ [] := by decide +kernel

theorem not_started (ws : Nat → List (Nat × UInt8)) (p : Nat) (schedule : List Nat) (s : Spec.Race) (hs : s.written p = none) (hp : p ∉ schedule) :
    (schedule.foldl (Spec.Race.step ws) s).written p = none := by
  induction schedule generalizing s with
  | nil => exact hs
  | cons q l ih =>
    rw [List.mem_cons, not_or] at hp
    refine ih _ ?_ hp.2
    unfold Spec.Race.step
    split
    · simp only [if_neg hp.1]; exact hs
    · split
      · exact hs
      · simp only [if_neg hp.1]; exact hs

-- all are done
example : ∀ p k, (Spec.race (fun _ => Spec.byteWrites log₁) [5] turns).written p = some k → k = (Spec.byteWrites log₁).length := by
  intro p k h
  by_cases hp : p ∈ turns
  · have h1 : ∀ p ∈ [1, 2, 3], (Spec.race (fun _ => Spec.byteWrites log₁) [5] turns).written p = some (Spec.byteWrites log₁).length := by
      decide +kernel
    have h2 : ∀ p ∈ turns, p ∈ [1, 2, 3] := by decide +kernel
    rw [h1 p (h2 p hp)] at h
    exact (Option.some.inj h).symm
  · rw [Spec.race, not_started _ _ _ _ rfl hp] at h
    cases h

-- two processes that pack different data may leave an archive that holds a mixture
example : (unpackBytesFromBytes Toy.env (Spec.race (fun p => Spec.byteWrites (if p = 1 then log₁ else log₂)) []
    ([1, 2] ++ List.replicate 78 2 ++ List.replicate 300 1 ++ List.replicate 300 2)).file).toOption = some ([1, 2, 9], none) := by
  decide +kernel

end RaceExamples

end Bloscpack
