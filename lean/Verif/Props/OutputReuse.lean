import Verif.Props.SourceReuse
import Verif.Props.Numpy
import Verif.Props.MemoryIO
import Verif.Examples.JsonEnv
/-
C120: a sink for unpacked data that was used before.
-/
namespace Bloscpack
variable {μ : Type}

/-- what each of several unpackings writes to an empty file, one behind the other -/
def Spec.given (E : Env μ) (us : List (FPSource μ × FP)) : Bytes := (us.map (fun u => (u.1.unpackTo E u.2).2.2)).flatten

/-- a sink that keeps all it is given, with `S` telling which states hold what -/
theorem unpackSeq_keeps (E : Env μ) {τ : Type} (put : Bytes → Proc τ Unit) (S : Bytes → τ → Prop)
    (hbad : ∀ c e O t, E.decompress c = .error e → S O t → (put c t).1 = .error e ∧ S O (put c t).2)
    (hok : ∀ c d O t, E.decompress c = .ok d → S O t → (put c t).1 = .ok () ∧ S (O ++ d) (put c t).2) :
    ∀ (us : List (FPSource μ × FP)) (O : Bytes) (t : τ), S O t → S (O ++ Spec.given E us) (unpackSeq put us t)
  | [], O, t, h => by simpa [Spec.given, unpackSeq] using h
  | (src, fp) :: us, O, t, h => by
    have hsim := unpackLoop_sim (compressedFPSource src.header src.impl) put (plainFPSinkPut E)
      (fun t t' => ∃ A lo, t' = Z A [] lo ∧ S (O ++ A) t) (by
        rintro c t t' ⟨A, lo, rfl, ht⟩
        unfold plainFPSinkPut
        cases hd : E.decompress c with
        | error e =>
          rw [Proc.bind_of_error (Proc.ofExcept_apply _ _)]
          exact ⟨(hbad c e _ t hd ht).1, A, lo, rfl, (hbad c e _ t hd ht).2⟩
        | ok d =>
          rw [Proc.bind_of_ok (Proc.ofExcept_apply _ _), fpWrite_Z]
          refine ⟨(hok c d _ t hd ht).1, A ++ d, lo ++ [(A.length, d)], by simp, ?_⟩
          rw [← List.append_assoc]
          exact (hok c d _ t hd ht).2)
      (compressedFPSource (σ := FP) src.header src.impl).nchunks.toNat 0 fp t { data := [] } ⟨[], [], rfl, by simpa using h⟩
    obtain ⟨-, -, A, lo, h3, h4⟩ := hsim
    have hA : (src.unpackTo E fp).2.2 = A := by
      unfold FPSource.unpackTo unpack
      simp only [h3]; simp [Z]
    have := unpackSeq_keeps E put S hbad hok us (O ++ A) _ h4
    rw [unpackSeq]
    simp only [Spec.given, List.map_cons, List.flatten_cons, hA] at this ⊢
    rw [← List.append_assoc]
    exact this

/-- **C120 (files)** Unpacking several archives with one sink on a file object, also if some of this fails: the file holds what it
held before, and behind it what each unpacking gives on its own, in order. -/
theorem C120_file_partial (E : Env μ) (us : List (FPSource μ × FP)) (old : Bytes) :
    (unpackSeq (plainFPSinkPut E) us ({ data := old, pos := old.length } : FP)).data = old ++ Spec.given E us := by
  obtain ⟨lo, h⟩ := unpackSeq_keeps E (plainFPSinkPut E) (fun O t => ∃ lo, t = Z O [] lo)
    (by
      rintro c e O t hd ⟨lo, rfl⟩
      unfold plainFPSinkPut
      rw [hd, Proc.bind_of_error (Proc.ofExcept_apply _ _)]
      exact ⟨rfl, lo, rfl⟩)
    (by
      rintro c d O t hd ⟨lo, rfl⟩
      unfold plainFPSinkPut
      rw [hd, Proc.bind_of_ok (Proc.ofExcept_apply _ _), fpWrite_Z]
      exact ⟨rfl, lo ++ [(O.length, d)], by simp⟩) us old { data := old, pos := old.length } ⟨[], by simp [Z]⟩
  rw [h]
  simp [Z]

/-- **C120 (memory)** The same with one sink in memory made without a number of chunks. -/
theorem C120_memory_partial (E : Env μ) (us : List (FPSource μ × FP)) :
    ∃ ds : List Bytes, (unpackSeq (plainMemorySinkPut E) us (.new none)).chunks = ds.map some ∧ ds.flatten = Spec.given E us := by
  have h := unpackSeq_keeps E (plainMemorySinkPut E)
    (fun O t => t.have_chunks = false ∧ ∃ ds : List Bytes, t.chunks = ds.map some ∧ ds.flatten = O)
    (by
      rintro c e O t hd ht
      unfold plainMemorySinkPut
      rw [hd, Proc.bind_of_error (Proc.ofExcept_apply _ _)]
      exact ⟨rfl, ht⟩)
    (by
      rintro c d O t hd ⟨h1, ds, h2, h3⟩
      unfold plainMemorySinkPut
      rw [hd, Proc.bind_of_ok (Proc.ofExcept_apply _ _), Proc.bind_of_ok (Proc.get_apply _), if_neg (by rw [h1]; decide)]
      exact ⟨rfl, h1, ds ++ [d], by simp [Proc.modify, h2], by simp [h3]⟩) us [] (.new none) ⟨rfl, [], rfl, rfl⟩
  exact h.2

/-- **C120 (memory, known number of chunks)** A sink in memory that was made for `n` chunks and has all of them stays as it is, whatever
is unpacked with it after that, and unpacking anything that has chunks raises an exception. -/
theorem C120_full_partial (E : Env μ) (us : List (FPSource μ × FP)) (t : PlainMemSink) (h1 : t.have_chunks = true)
    (h2 : t.i = t.chunks.length) :
    unpackSeq (plainMemorySinkPut E) us t = t ∧
    ∀ (src : FPSource μ) (fp : FP), 1 ≤ src.header.nchunks →
      ∃ e, (unpack (compressedFPSource src.header src.impl) (plainMemorySinkPut E) (fp, t)).1 = .error e := by
  have hput : ∀ c, ∃ e, plainMemorySinkPut E c t = (.error e, t) := by
    intro c
    unfold plainMemorySinkPut
    cases hd : E.decompress c with
    | error e => exact ⟨e, by rw [Proc.bind_of_error (Proc.ofExcept_apply _ _)]⟩
    | ok d =>
      refine ⟨.indexError, ?_⟩
      rw [Proc.bind_of_ok (Proc.ofExcept_apply _ _), Proc.bind_of_ok (Proc.get_apply _), if_pos h1, if_neg (by omega)]
      rfl
  have hstep : ∀ (src : CompressedSource FP) fuel i s, ∃ e s', unpackLoop src (plainMemorySinkPut E) (fuel + 1) i (s, t) = (.error e, (s', t)) := by
    intro src fuel i s
    rw [unpackLoop]
    generalize hq : src.next i s = r
    obtain ⟨r, s'⟩ := r
    have h3 : Proc.onFst (τ := PlainMemSink) (src.next i) (s, t) = (r, (s', t)) := by simp [Proc.onFst, hq]
    cases r with
    | error e => exact ⟨e, s', by rw [Proc.bind_of_error h3]⟩
    | ok cd =>
      rw [Proc.bind_of_ok h3]
      cases hk : checkDigest src.checksumImpl cd.1 cd.2 with
      | error e => exact ⟨e, s', by rw [Proc.bind_of_error (Proc.ofExcept_apply _ _)]⟩
      | ok u =>
        obtain ⟨e, he⟩ := hput cd.1
        have h5 : Proc.onSnd (τ := FP) (plainMemorySinkPut E cd.1) (s', t) = (.error e, (s', t)) := by simp [Proc.onSnd, he]
        exact ⟨e, s', by rw [Proc.bind_of_ok (Proc.ofExcept_apply _ _), Proc.bind_of_error h5]⟩
  constructor
  · induction us with
    | nil => rfl
    | cons u us ih =>
      obtain ⟨src, fp⟩ := u
      rw [unpackSeq]
      have : (unpack (compressedFPSource src.header src.impl) (plainMemorySinkPut E) (fp, t)).2.2 = t := by
        unfold unpack
        generalize (compressedFPSource (σ := FP) src.header src.impl).nchunks.toNat = k
        cases k with
        | zero => rfl
        | succ k =>
          obtain ⟨e, s', he⟩ := hstep (compressedFPSource src.header src.impl) k 0 fp
          rw [he]
      rw [this, ih]
  · intro src fp hn
    unfold unpack
    obtain ⟨k, hk⟩ : ∃ k, (compressedFPSource (σ := FP) src.header src.impl).nchunks.toNat = k + 1 :=
      ⟨src.header.nchunks.toNat - 1, by show src.header.nchunks.toNat = _; omega⟩
    rw [hk]
    obtain ⟨e, s', he⟩ := hstep (compressedFPSource src.header src.impl) k 0 fp
    exact ⟨e, by rw [he]⟩

/-- **C120 (arrays)** Unpacking several archives with one sink for an array at address `ptr`: what each unpacking gives is stored
behind what the ones before gave, wherever the array ends. -/
theorem C120_array (E : Env Json) (us : List (FPSource Json × FP)) (mem : Int → UInt8) (ptr : Int) :
    unpackSeq (numpySinkPut E) us (mem, ptr) = (writeMem mem ptr (Spec.given E us), ptr + (Spec.given E us).length) := by
  have h := unpackSeq_keeps E (numpySinkPut E) (fun O t => t = (writeMem mem ptr O, ptr + O.length))
    (by
      rintro c e O t hd rfl
      unfold numpySinkPut
      rw [hd, Proc.bind_of_error (Proc.ofExcept_apply _ _)]
      exact ⟨rfl, rfl⟩)
    (by
      rintro c d O t hd rfl
      unfold numpySinkPut
      rw [hd, Proc.bind_of_ok (Proc.ofExcept_apply _ _)]
      refine ⟨rfl, ?_⟩
      simp [Proc.modify, writeMem_append, Int.add_assoc]) us [] (mem, ptr) (by simp [writeMem_nil])
  simpa using h

/-- **C120 is violated for arrays**: an archive is unpacked with a sink for an array of `size` bytes, which it fills, and then another
one with the same sink. The array keeps the data of the first, and the data of the second is stored in the memory behind the array. -/
theorem C120_violated (E : Env Json) (src1 src2 : FPSource Json) (fp1 fp2 : FP) (mem : Int → UInt8) (ptr : Int) (size : Nat)
    (d1 d2 : Bytes) (h1 : (src1.unpackTo E fp1).2.2 = d1) (h2 : (src2.unpackTo E fp2).2.2 = d2) (hs : d1.length = size) :
    readMem (unpackSeq (numpySinkPut E) [(src1, fp1), (src2, fp2)] (mem, ptr)).1 ptr size = d1 ∧
    readMem (unpackSeq (numpySinkPut E) [(src1, fp1), (src2, fp2)] (mem, ptr)).1 (ptr + size) d2.length = d2 := by
  rw [C120_array]
  have hg : Spec.given E [(src1, fp1), (src2, fp2)] = d1 ++ d2 := by simp [Spec.given, h1, h2]
  rw [hg]
  subst hs
  have h := readMem_writeMem mem ptr (d1 ++ d2)
  rw [List.length_append, readMem_add] at h
  exact List.append_inj h (by simp)

/-- **C120 is violated after a failure**: unpacking failed after part of the data, and is tried again with the same sink. The array,
which the data would fill, holds the part, and behind it the beginning of the data; the rest is stored behind the array. -/
theorem C120_retry_violated (E : Env Json) (src1 src2 : FPSource Json) (fp1 fp2 : FP) (mem : Int → UInt8) (ptr : Int)
    (part data : Bytes) (h1 : (src1.unpackTo E fp1).2.2 = part) (h2 : (src2.unpackTo E fp2).2.2 = data)
    (hs : part.length ≤ data.length) :
    readMem (unpackSeq (numpySinkPut E) [(src1, fp1), (src2, fp2)] (mem, ptr)).1 ptr data.length =
      part ++ data.take (data.length - part.length) ∧
    readMem (unpackSeq (numpySinkPut E) [(src1, fp1), (src2, fp2)] (mem, ptr)).1 (ptr + data.length) part.length =
      data.drop (data.length - part.length) := by
  rw [C120_array]
  have hg : Spec.given E [(src1, fp1), (src2, fp2)] = (part ++ data.take (data.length - part.length)) ++ data.drop (data.length - part.length) := by
    simp [Spec.given, h1, h2]
  rw [hg]
  have h := readMem_writeMem mem ptr ((part ++ data.take (data.length - part.length)) ++ data.drop (data.length - part.length))
  have hl : (part ++ data.take (data.length - part.length)).length = data.length := by simp; omega
  have hl2 : (data.drop (data.length - part.length)).length = part.length := by simp; omega
  rw [List.length_append, hl, hl2, readMem_add] at h
  exact List.append_inj h (by rw [hl]; simp)

/-! ### examples -/

namespace Toy.Outputs

def job (data : Bytes) : PackJob Json := { data := data, chunk_size := .int 2 }

/-- a source on the archive of some data, and its file object -/
def made (data : Bytes) : Option (FPSource Json × FP) :=
  match packBytesToBytes Toy.jsonEnv (job data).data (job data).chunk_size with
  | .ok out =>
    match openSource Toy.jsonEnv { data := out } with
    | (.ok src, fp) => some (src, fp)
    | _ => none
  | _ => none

def five : Bytes := [1, 2, 3, 4, 5]
def other : Bytes := [9, 8, 7]

/-- both unpackings give their data, and with one sink for an array of five bytes the second goes behind the array -/
example : (match made five, made other with
    | some u, some v =>
      let m := (unpackSeq (numpySinkPut Toy.jsonEnv) [u, v] ((fun _ => 0), 1000)).1
      some ((u.1.unpackTo Toy.jsonEnv u.2).2.2, (v.1.unpackTo Toy.jsonEnv v.2).2.2, readMem m 1000 5, readMem m 1005 4)
    | _, _ => none) = some (five, other, five, other ++ [0]) := by
  decide +kernel

/-- a file and sinks in memory -/
example : (match made five, made other with
    | some u, some v => some ((unpackSeq (plainFPSinkPut Toy.jsonEnv) [u, v] ({ data := [6], pos := 1 } : FP)).data,
      (unpackSeq (plainMemorySinkPut Toy.jsonEnv) [u, v] (.new none)).chunks,
      (unpackSeq (plainMemorySinkPut Toy.jsonEnv) [u, v] (.new (some 3))).chunks)
    | _, _ => none) = some ([6] ++ five ++ other, [some [1, 2], some [3, 4], some [5], some [9, 8], some [7]],
      [some [1, 2], some [3, 4], some [5]]) := by
  decide +kernel

end Toy.Outputs

end Bloscpack
