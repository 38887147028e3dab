import Verif.Props.Streams
import Verif.Model.MemoryIO
/-
C118: a sink that was used before.
-/
namespace Bloscpack
variable {μ : Type}

/-! ### packing without metadata leaves the sink as if it were new -/

/-- a procedure that never changes the length of the metadata the sink remembers -/
def KeepsMetaTotal {α : Type} (p : Proc FPSink α) : Prop := ∀ s, (p s).2.meta_total = s.meta_total

theorem KeepsMetaTotal.bind {α β : Type} {p : Proc FPSink α} {f : α → Proc FPSink β} (hp : KeepsMetaTotal p)
    (hf : ∀ a, KeepsMetaTotal (f a)) : KeepsMetaTotal (p >>= f) := by
  intro s
  cases hr : p s with
  | mk r s' =>
    have h1 := hp s
    rw [hr] at h1
    cases r with
    | error e => rw [Proc.bind_of_error hr]; exact h1
    | ok a => rw [Proc.bind_of_ok hr, hf a s']; exact h1

theorem KeepsMetaTotal.onFP {α : Type} (p : Proc FP α) : KeepsMetaTotal (FPSink.onFP p) := fun _ => rfl

theorem KeepsMetaTotal.pure {α : Type} (a : α) : KeepsMetaTotal (Proc.pure a) := fun _ => rfl

theorem KeepsMetaTotal.get : KeepsMetaTotal (Proc.get : Proc FPSink FPSink) := fun _ => rfl

theorem KeepsMetaTotal.ofExcept {α : Type} (x : Except Err α) : KeepsMetaTotal (Proc.ofExcept x) := by
  intro s; rw [Proc.ofExcept_apply]

theorem KeepsMetaTotal.raise {α : Type} (e : Err) : KeepsMetaTotal (Proc.raise e : Proc FPSink α) := fun _ => rfl

theorem KeepsMetaTotal.raiseIf (c : Prop) [Decidable c] (e : Err) : KeepsMetaTotal (Proc.raiseIf c e : Proc FPSink Unit) := by
  intro s
  by_cases h : c
  · rw [Proc.raiseIf_pos h]
  · rw [Proc.raiseIf_neg h]

theorem pack_keeps (E : Env μ) (src : PlainSource) (n c l : Int) (a : BloscArgs) (b : BloscpackArgs) (m : MetadataArgs) :
    KeepsMetaTotal (pack E src (compressedFPSink E) n c l none a b m) := by
  have hput : ∀ i x, KeepsMetaTotal ((compressedFPSink E).put i x) := by
    intro i x
    refine KeepsMetaTotal.bind .get fun s => KeepsMetaTotal.bind (.onFP _) fun _ => ?_
    split
    · exact KeepsMetaTotal.bind (.ofExcept _) fun _ => fun _ => rfl
    · exact .pure _
  have hloop : ∀ items i, KeepsMetaTotal (packLoop E (compressedFPSink E) a i items) := by
    intro items
    induction items with
    | nil => intro i; exact .pure _
    | cons x xs ih =>
      intro i
      exact KeepsMetaTotal.bind (.ofExcept _) fun _ => KeepsMetaTotal.bind (hput _ _) fun _ => ih _
  have hinit : KeepsMetaTotal (compressedFPSink E).initOffsets := by
    refine KeepsMetaTotal.bind .get fun s => ?_
    split
    · split
      · exact .raise _
      · refine KeepsMetaTotal.bind (fun _ => rfl) fun _ => KeepsMetaTotal.bind (.ofExcept _) fun _ =>
          KeepsMetaTotal.bind (.raiseIf _ _) fun _ => .onFP _
    · exact .pure _
  have hfin : KeepsMetaTotal (compressedFPSink E).finalize := by
    refine KeepsMetaTotal.bind .get fun s => ?_
    split
    · exact KeepsMetaTotal.bind (.onFP _) fun _ => .onFP _
    · exact .pure _
  unfold pack
  refine KeepsMetaTotal.bind (.ofExcept _) fun h => KeepsMetaTotal.bind ?_ fun _ => KeepsMetaTotal.bind ?_ fun _ =>
    KeepsMetaTotal.bind (.pure _) fun _ => KeepsMetaTotal.bind hinit fun _ => KeepsMetaTotal.bind (hloop _ _) fun _ => ?_
  · exact KeepsMetaTotal.bind (.ofExcept _) fun _ => fun _ => rfl
  · exact KeepsMetaTotal.bind .get fun _ => KeepsMetaTotal.bind (.ofExcept _) fun _ => .onFP _
  · split
    · exact .raise _
    · exact KeepsMetaTotal.bind hfin fun _ => .pure _

theorem packAgainAll_keeps (E : Env μ) (js : List (PackJob μ)) (h : ∀ j ∈ js, j.metadata = none) (s : FPSink) :
    (packAgainAll E js s).meta_total = s.meta_total := by
  induction js generalizing s with
  | nil => rfl
  | cons j js ih =>
    rw [packAgainAll, ih (fun i hi => h i (List.mem_cons_of_mem _ hi))]
    unfold packAgain
    split
    · rfl
    · simp only
      rw [h j List.mem_cons_self, pack_keeps]

/-- **C118 (without metadata or without offsets)** A sink was used before, any number of times and for anything, whether packing
returned or failed. Then the file object was set back and emptied. Packing to the sink gives the same archive as packing to a new
one if it writes no offsets, or if the sink was never given metadata. Missing: packing with offsets to a sink that was given
metadata before, see `C118_violated`. -/
theorem C118_reuse_partial {E : Env μ} (L : E.Laws) (history : List (PackJob μ)) (fp : FP) {j : PackJob μ} {out : Bytes}
    (h : j.Alone E out) (hu : j.b.offsets = false ∨ ∀ i ∈ history, i.metadata = none) :
    ∃ s', packAgain E j (packAgainAll E history { fp := fp }) = (.ok (), s') ∧ s'.fp.data = out := by
  obtain ⟨n, c, l, items, hd, sec, m', chs, h1, h2, h3, h4, h5, h6, h7, h8, h9, h10⟩ := packed_alone L h
  have hoffs := (packHeader_ok h5).2.2.1
  generalize hS : packAgainAll E history { fp := fp } = S
  have key := pack_with L _ n c l j.metadata j.a j.b j.m h2 items h3 h4 [] [] (s0 := { S with fp := { data := [] } }) rfl h5 h6 h7 h8 h9
  unfold packAgain
  rw [h1]
  rcases h10 with ⟨ho, rfl⟩ | ⟨ho, -, raw, hraw⟩
  · obtain ⟨s, lg', e1, e2, -⟩ := key.1 ho
    exact ⟨s, by simp only [e1, Except.map], by rw [e2]; simp [Z]⟩
  · have ht : S.meta_total = 0 := by
      rcases hu with hu | hu
      · rw [← hoffs, ho] at hu; cases hu
      · rw [← hS, packAgainAll_keeps E history hu]
    have hk := base_long E hd sec chs []
    have hraw' : encodeOffsets (Spec.positions ((baseFile hd sec chs).impl E).function
        (([] : Bytes).length + ((baseFile hd sec chs).front E).length) (chs.map (·.1))) = .ok raw := by
      rw [List.length_nil, Nat.zero_add]; exact hraw
    obtain ⟨s, e1, e2, -⟩ := key.2 ho raw hraw'
    -- a new sink gives the same
    obtain ⟨sn, f1, f2, -⟩ := (pack_at L _ n c l j.metadata j.a j.b j.m h2 items h3 h4 [] [] h5 h6 h7 h8 h9).2 ho raw hraw'
    refine ⟨s, by simp only [e1, Except.map], ?_⟩
    have hout : sn.fp.data = out := by
      have hz : ({ fp := Z [] [] [] } : FPSink) = { fp := { data := [] } } := rfl
      rw [hz] at f1
      unfold PackJob.Alone packBytesToBytes at h
      rw [h1] at h
      simp only [f1] at h
      split at h
      · cases h
      · injection h
    rw [← hout, e2, f2]
    simp only [ht, Nat.zero_add]
    rw [overlay_of_le hk]

theorem section_long {E : Env μ} {i : PackJob μ} {sec : Option (Section μ)} {m'} (hs : SecFor E i.metadata i.m sec m')
    (hm : i.metadata ≠ none) : ∃ x, sec = some x ∧ x.Valid E ∧ 32 ≤ (optSecBytes E sec).length := by
  rcases hs with ⟨h1, -, -⟩ | ⟨S, x, -, -, hx, rfl, -⟩
  · exact absurd h1 hm
  · refine ⟨x, rfl, hx.valid, ?_⟩
    simp only [optSecBytes, Section.bytes, List.length_append, MetadataHeader.bytes_length]
    omega

/-- where the metadata section of an archive ends: reading the headers and the metadata leaves the file object there -/
def endOfMetadata (E : Env μ) (archive : Bytes) : Nat :=
  ((do let _ ← readBloscpackHeader
       let _ ← readMetadata E
       Proc.pure () : Proc FP Unit) { data := archive }).2.pos

/-- **C118 violated** A sink was used to pack something with metadata, then the file object was set back and emptied. Packing with
offsets, which is the default, to the same sink returns without complaint. But the place `k` where the offsets belong is missed by
`t`, the length of the metadata section of the packing before: the archive keeps the value -1 for each of its
offsets, and whatever lies `t` further on is overwritten with them. If the archive is not that long, zeros are put behind it
up to there. -/
theorem C118_violated {E : Env μ} (L : E.Laws) {i j : PackJob μ} {iout out : Bytes} (hi : i.Alone E iout) (him : i.metadata ≠ none)
    (h : j.Alone E out) (ho : j.b.offsets = true) (hsize : out.length < 2 ^ 63) (fp : FP) :
    ∃ t, 32 ≤ t ∧ endOfMetadata E iout = 32 + t ∧
    ∃ hd mh offs k, (readBeginning E ({ data := out } : FP)).1 = .ok (hd, j.metadata, mh, offs) ∧ offs ≠ [] ∧
      (out.drop k).take (8 * offs.length) = Spec.int64s offs ∧
      ∃ s', packAgain E j (packAgain E i { fp := fp }).2 = (.ok (), s') ∧
        ∀ D, D = out.take k ++ (Spec.int64s (List.replicate offs.length (-1)) ++ out.drop (k + 8 * offs.length)) →
          s'.fp.data = D.take (k + t) ++ List.replicate (k + t - D.length) 0 ++ Spec.int64s offs ++
            D.drop (k + t + 8 * offs.length) := by
  -- the first packing
  obtain ⟨t, ht, hend, hfirst⟩ : ∃ t, 32 ≤ t ∧ endOfMetadata E iout = 32 + t ∧ (packAgain E i { fp := fp }).2.meta_total = t := by
    obtain ⟨n, c, l, items, hd, sec, m', chs, h1, h2, h3, h4, h5, h6, h7, h8, h9, h10⟩ := packed_alone L hi
    obtain ⟨hok, hver, -, hmeta, -⟩ := packHeader_ok h5
    obtain ⟨x, hx, hxv, hlong⟩ := section_long h6 him
    have key := pack_with L _ n c l i.metadata i.a i.b i.m h2 items h3 h4 [] [] (s0 := { fp := { data := [] } }) rfl h5 h6 h7 h8 h9
    refine ⟨(optSecBytes E sec).length, hlong, ?_, ?_⟩
    · obtain ⟨R, hR⟩ : ∃ R, iout = hd.bytes ++ (x.bytes E ++ R) := by
        rcases h10 with ⟨-, rfl⟩ | ⟨-, rfl, -⟩
        · refine ⟨(baseFile hd sec chs).offsets ++ ((baseFile hd sec chs).body E ++ []), ?_⟩
          simp only [File.bytes, File.front, File.secBytes]
          simp [baseFile, hx]
        · refine ⟨(packedFile E hd sec chs).offsets ++ ((packedFile E hd sec chs).body E ++ []), ?_⟩
          simp only [File.bytes, File.front, File.secBytes]
          simp [packedFile, baseFile, hx]
      unfold endOfMetadata
      have hz : ({ data := iout } : FP) = Z [] (hd.bytes ++ (x.bytes E ++ R)) [] := by rw [hR]; rfl
      rw [hz, Proc.bind_of_ok (readHeader_ok hok hver [] _ []), Proc.bind_of_ok (readMetadata_section L hxv _ _ _)]
      simp [Z, Proc.pure, hx, optSecBytes, BloscpackHeader.bytes_length]
    · unfold packAgain
      rw [h1]
      rcases h10 with ⟨ho, -⟩ | ⟨ho, -, raw, hraw⟩
      · obtain ⟨s, lg', e1, -, e3⟩ := key.1 ho
        simp only [e1]
        rw [e3]
        simp
      · obtain ⟨s, e1, -, -, e3⟩ := key.2 ho raw (by rw [List.length_nil, Nat.zero_add]; exact hraw)
        simp only [e1]
        rw [e3]
        simp
  -- the second packing
  obtain ⟨n, c, l, items, hd, sec, m', chs, offs, pre, rest, h1, h2, h3, h4, h5, h6, h7, h8, h9, hoff, hoffs, hpre, hO, hB, hpos, hrest,
    hrange, hread⟩ := alone_offsets L h ho hsize
  have h8l := int64s_length offs
  refine ⟨t, ht, hend, hd, sec.map (·.header), offs, pre.length, hread, ?_, ?_, ?_⟩
  · intro hn; rw [hn] at hpos; simp at hpos
  · rw [hO, List.drop_left, ← h8l, List.take_left]
  generalize (packAgain E i { fp := fp }).2 = S at hfirst
  have hl : ((baseFile hd sec chs).bytes E).length = out.length := by
    rw [hB, hO]; simp only [List.length_append, int64s_length, List.length_replicate]
  have henc : encodeOffsets (Spec.positions ((baseFile hd sec chs).impl E).function
      (([] : Bytes).length + ((baseFile hd sec chs).front E).length) (chs.map (·.1))) = .ok (Spec.int64s offs) := by
    rw [List.length_nil, Nat.zero_add, ← hoffs, encodeOffsets_iff]
    refine ⟨?_, rfl⟩
    intro o ho
    have := hrange o ho
    omega
  obtain ⟨s, e1, e2, -⟩ := (pack_with L _ n c l j.metadata j.a j.b j.m h2 items h3 h4 [] []
    (s0 := { S with fp := { data := [] } }) rfl h5 h6 h7 h8 h9).2 hoff _ henc
  refine ⟨s, ?_, ?_⟩
  · unfold packAgain
    rw [h1]
    simp only [e1, Except.map]
  · rintro D rfl
    have htk : out.take pre.length = pre := by rw [hO, List.take_left]
    have hdr : out.drop (pre.length + 8 * offs.length) = rest := by
      rw [hO, ← List.drop_drop, List.drop_left, ← h8l, List.drop_left]
    have hkt : 32 + (S.meta_total + (optSecBytes E sec).length) = pre.length + t := by omega
    rw [htk, hdr, ← hB, e2]
    simp only [List.nil_append, hkt]
    unfold overlay
    rw [if_neg (by intro hn; rw [hn] at h8l; simp at h8l; omega), h8l]

/-- **C118 (sinks in memory)** Packing to a `CompressedMemorySink` gives the same result whatever the sink was used for before (`s` and
`s'` are any two states): the same outcome, and if packing returns, the same chunks, checksums and metadata. -/
theorem C118_memory (E : Env μ) (src : PlainSource) (n c l : Int) (md : Option μ) (a : BloscArgs) (b : BloscpackArgs)
    (m : MetadataArgs) (s s' : MemSink μ) :
    (pack E src (compressedMemorySink E) n c l md a b m s).1 = (pack E src (compressedMemorySink E) n c l md a b m s').1 ∧
    (∀ m', (pack E src (compressedMemorySink E) n c l md a b m s).1 = .ok m' →
      (pack E src (compressedMemorySink E) n c l md a b m s).2 = (pack E src (compressedMemorySink E) n c l md a b m s').2) := by
  unfold pack
  cases hph : packHeader n c l md a b with
  | error e =>
    rw [Proc.bind_of_error (Proc.ofExcept_apply _ _), Proc.bind_of_error (Proc.ofExcept_apply _ _)]
    exact ⟨rfl, fun m' h => by cases h⟩
  | ok h =>
    rw [Proc.bind_of_ok (Proc.ofExcept_apply _ _), Proc.bind_of_ok (Proc.ofExcept_apply _ _)]
    have hc : ∀ s : MemSink μ, ∀ {impl}, h.checksumImpl E = .ok impl → (compressedMemorySink E).configure a h s = (.ok (),
        { impl := impl, nchunks := h.nchunks, chunks := List.replicate h.nchunks.toNat none,
          checksums := List.replicate h.nchunks.toNat none }) := by
      intro s impl hi
      show (Proc.ofExcept (h.checksumImpl E) >>= _) s = _
      rw [Proc.bind_of_ok (Proc.ofExcept_apply _ _ |>.trans (by rw [hi]))]
      rfl
    obtain ⟨impl, hi, -⟩ := checksumLookup_of (hl := E.hashlib) (packHeader_ok hph).1.2.1
    have hi' : h.checksumImpl E = .ok impl := hi
    rw [Proc.bind_of_ok (hc s hi'), Proc.bind_of_ok (hc s' hi')]
    exact ⟨rfl, fun _ _ => rfl⟩

/-! ### examples -/

namespace Toy.Streams

/-- with metadata and offsets -/
def j4 : PackJob Nat :=
  { data := [1, 2, 3], chunk_size := .int 2, metadata := some 5, b := { offsets := true, checksum := "None", max_app_chunks := .int 1 },
    m := { meta_codec := "None", meta_checksum := "None", max_meta_size := .int 6 } }

/-- cannot be packed -/
def j5 : PackJob Nat := { data := [1, 2, 3], chunk_size := .int 2, a := { clevel := 10 } }

theorem alone4 : j4.Alone Toy.env (out j4) := by unfold PackJob.Alone; decide +kernel

/-- after other uses of the sink, one of which failed -/
example : (packAgain Toy.env j5 { fp := { data := [] } }).1 = .error .valueError ∧
    ∃ s', packAgain Toy.env j4 (packAgainAll Toy.env [j5, j2, j3] { fp := { data := [] } }) = (.ok (), s') ∧ s'.fp.data = out j4 := by
  refine ⟨by decide +kernel, ?_⟩
  refine C118_reuse_partial Toy.laws [j5, j2, j3] { data := [] } alone4 (.inr ?_)
  simp only [List.mem_cons, List.not_mem_nil, or_false]
  rintro p (rfl | rfl | rfl) <;> rfl

example : j4.metadata ≠ none ∧ j4.b.offsets = true ∧ (out j4).length < 2 ^ 63 ∧ endOfMetadata Toy.env (out j4) = 70 ∧
    70 + 38 ≤ (out j4).length := by decide +kernel

/-- the consequence: packing the same once more to the same sink returns, but the result cannot be unpacked -/
example : (packAgain Toy.env j4 { fp := { data := [] } }).1 = .ok () ∧
    (packAgain Toy.env j4 (packAgain Toy.env j4 { fp := { data := [] } }).2).1 = .ok () ∧
    (packAgain Toy.env j4 { fp := { data := [] } }).2.fp.data = out j4 ∧
    (unpackFrom Toy.env (packAgain Toy.env j4 (packAgain Toy.env j4 { fp := { data := [] } }).2).2.fp.data).1 =
      .error .bloscError := by decide +kernel

/-- a sink in memory that was used with other metadata and another checksum -/
example : (pack Toy.env (plainMemorySource [[1, 2], [3]]) (compressedMemorySink Toy.env) 2 2 1 none {} { checksum := "None" } {}
      { metadata := some 9, nchunks := 7, chunks := [some [0]] }).1.map (fun _ => ()) = .ok () ∧
    (pack Toy.env (plainMemorySource [[1, 2], [3]]) (compressedMemorySink Toy.env) 2 2 1 none {} { checksum := "None" } {}
      { metadata := some 9, nchunks := 7, chunks := [some [0]] }).2.metadata = none := by decide +kernel

end Toy.Streams

end Bloscpack
