import Verif.Lemmas.Streams
import Verif.Lemmas.PackTotal
import Verif.Props.RoundTrip
import Verif.Examples.Toy
/-
C117: several archives one behind the other in one file object.

Archives can be read from wherever they begin, one after the other. Packing behind something that is already in the file works
without offsets, and destroys what is there with offsets: they are written to the beginning of the file, not of the archive.
-/
namespace Bloscpack
variable {μ : Type}

/-- what `pack_bytes_to_bytes` gives for the same job -/
def PackJob.Alone (E : Env μ) (j : PackJob μ) (out : Bytes) : Prop :=
  packBytesToBytes E j.data j.chunk_size j.metadata j.a j.b j.m = .ok out

/-! ### reading -/

theorem unpackAll_at {E : Env μ} (L : E.Laws) (js : List (PackJob μ × Bytes)) (h : ∀ p ∈ js, p.1.Alone E p.2) (A R : Bytes) (l) :
    unpackAll E js.length (Z A ((js.map (·.2)).flatten ++ R) l) =
      (.ok (js.map fun p => (p.1.metadata, p.1.data)), Z (A ++ (js.map (·.2)).flatten) R l) := by
  induction js generalizing A with
  | nil => simp [unpackAll]
  | cons p ps ih =>
    obtain ⟨F, n, c, l', m', h1, h2, h3, h4, h5, -⟩ := packBytesToBytes_ok L (h p List.mem_cons_self)
    have hu := unpackNext_at L h2.toValid h3 A ((ps.map (·.2)).flatten ++ R) l
    rw [← h1, h4, h5] at hu
    have hr := ih (fun q hq => h q (List.mem_cons_of_mem _ hq)) (A ++ p.2)
    simp only [List.length_cons, List.map_cons, List.flatten_cons, List.append_assoc, unpackAll]
    rw [Proc.bind_of_ok hu, Proc.bind_of_ok hr]
    simp

/-- **C117** Archives that lie one behind the other in a file, behind anything, are unpacked one after the other: `k` times
`unpack(CompressedFPSource(fp), ...)` on the same file object gives metadata and data of all of them in order, whatever follows
them, and leaves the file object at the end of the last one. -/
theorem C117_read {E : Env μ} (L : E.Laws) (js : List (PackJob μ × Bytes)) (h : ∀ p ∈ js, p.1.Alone E p.2) (A R : Bytes) :
    ∃ fp', unpackAll E js.length { data := A ++ ((js.map (·.2)).flatten ++ R), pos := A.length } =
        (.ok (js.map fun p => (p.1.metadata, p.1.data)), fp') ∧
      fp'.data = A ++ ((js.map (·.2)).flatten ++ R) ∧ fp'.pos = A.length + (js.map (·.2)).flatten.length :=
  ⟨_, unpackAll_at L js h A R [], by simp [Z], by simp [Z]⟩

/-! ### writing without offsets -/

theorem packNext_at {E : Env μ} (L : E.Laws) {j : PackJob μ} {out : Bytes} (h : j.Alone E out) (ho : j.b.offsets = false)
    (A : Bytes) (lg) : ∃ lg', packNext E j (Z A [] lg) = (.ok (), Z (A ++ out) [] lg') := by
  obtain ⟨n, c, l, items, hd, sec, m', chs, h1, h2, h3, h4, h5, h6, h7, h8, h9, h10⟩ := packed_alone L h
  have hoff : hd.offsets = false := (packHeader_ok h5).2.2.1.trans ho
  obtain ⟨s, lg', e1, e2⟩ := (pack_at L _ n c l j.metadata j.a j.b j.m h2 items h3 h4 A lg h5 h6 h7 h8 h9).1 hoff
  rcases h10 with ⟨-, rfl⟩ | ⟨hx, -⟩
  · refine ⟨lg', ?_⟩
    unfold packNext
    rw [h1]
    simp only [e1, e2, Except.map]
  · rw [hoff] at hx; cases hx

theorem packAll_at {E : Env μ} (L : E.Laws) (js : List (PackJob μ × Bytes)) (h : ∀ p ∈ js, p.1.Alone E p.2)
    (ho : ∀ p ∈ js, p.1.b.offsets = false) (A : Bytes) (lg) :
    ∃ lg', packAll E (js.map (·.1)) (Z A [] lg) = (.ok (), Z (A ++ (js.map (·.2)).flatten) [] lg') := by
  induction js generalizing A lg with
  | nil => exact ⟨lg, by simp [packAll]⟩
  | cons p ps ih =>
    obtain ⟨lg1, e1⟩ := packNext_at L (h p List.mem_cons_self) (ho p List.mem_cons_self) A lg
    obtain ⟨lg2, e2⟩ := ih (fun q hq => h q (List.mem_cons_of_mem _ hq)) (fun q hq => ho q (List.mem_cons_of_mem _ hq)) (A ++ p.2) lg1
    refine ⟨lg2, ?_⟩
    simp only [List.map_cons, packAll, List.flatten_cons]
    rw [Proc.bind_of_ok e1, e2, List.append_assoc]

/-- **C117 (without offsets)** Whatever the file holds already: packings without offsets, each of which would succeed on its own,
succeed one after the other on the same file object. Each adds exactly the archive it would have given on its own, nothing in the
file changes, and the file object is left at the end. Unpacking from where the first packing began gives everything back in order.
Missing: packing with offsets, which is the default, see `C117_violated`. -/
theorem C117_behind_partial {E : Env μ} (L : E.Laws) (js : List (PackJob μ × Bytes)) (h : ∀ p ∈ js, p.1.Alone E p.2)
    (ho : ∀ p ∈ js, p.1.b.offsets = false) (A : Bytes) :
    (∃ fp', packAll E (js.map (·.1)) { data := A, pos := A.length } = (.ok (), fp') ∧
      fp'.data = A ++ (js.map (·.2)).flatten ∧ fp'.pos = fp'.data.length) ∧
    ∀ fp', packAll E (js.map (·.1)) { data := A, pos := A.length } = (.ok (), fp') →
      (unpackAll E js.length { data := fp'.data, pos := A.length }).1 = .ok (js.map fun p => (p.1.metadata, p.1.data)) := by
  obtain ⟨lg, e⟩ := packAll_at L js h ho A []
  have hz : ({ data := A, pos := A.length } : FP) = Z A [] [] := by simp [Z]
  rw [hz, e]
  refine ⟨⟨_, rfl, by simp [Z], by simp [Z]⟩, ?_⟩
  rintro fp' hfp
  simp only [Prod.mk.injEq, true_and] at hfp
  rw [← hfp]
  obtain ⟨fp2, h1, -⟩ := C117_read L js h A []
  simp only [List.append_nil, Z] at h1 ⊢
  rw [h1]

/-! ### writing with offsets -/

theorem positions_shift (f : Bytes → Bytes) (s t : Nat) (cs : List Bytes) :
    Spec.positions f (t + s) cs = (Spec.positions f s cs).map (· + (t : Int)) := by
  induction cs generalizing s with
  | nil => rfl
  | cons c cs ih =>
    simp only [Spec.positions, List.map_cons]
    rw [show t + s + c.length + (f c).length = t + (s + c.length + (f c).length) by omega, ih]
    congr 1
    omega

/-- the parts of an archive with offsets, and of what packing leaves before it writes the offsets -/
theorem alone_offsets {E : Env μ} (L : E.Laws) {j : PackJob μ} {out : Bytes} (h : j.Alone E out) (ho : j.b.offsets = true)
    (hsize : out.length < 2 ^ 63) :
    ∃ n c l items hd sec m' chs offs pre rest, calculateNchunks j.data.length j.chunk_size = .ok (n, c, l) ∧ 1 ≤ n ∧
      plainFPSource { data := j.data } c l n = ⟨items, none⟩ ∧ items.length = n.toNat ∧
      packHeader n c l j.metadata j.a j.b = .ok hd ∧ SecFor E j.metadata j.m sec m' ∧ offsetsLen hd < 2 ^ 63 ∧
      chs.map (·.2) = items ∧ (∀ p ∈ chs, E.compress p.2 j.a = .ok p.1) ∧ hd.offsets = true ∧
      offs = Spec.positions ((baseFile hd sec chs).impl E).function ((baseFile hd sec chs).front E).length (chs.map (·.1)) ∧
      pre.length = 32 + (optSecBytes E sec).length ∧ out = pre ++ (Spec.int64s offs ++ rest) ∧
      (baseFile hd sec chs).bytes E = pre ++ (Spec.int64s (List.replicate offs.length (-1)) ++ rest) ∧ 1 ≤ offs.length ∧
      1 ≤ rest.length ∧ (∀ o ∈ offs, 0 ≤ o ∧ o ≤ out.length) ∧
      (readBeginning E ({ data := out } : FP)).1 = .ok (hd, j.metadata, sec.map (·.header), offs) := by
  obtain ⟨n, c, l, items, hd, sec, m', chs, h1, h2, h3, h4, h5, h6, h7, h8, h9, h10⟩ := packed_alone L h
  obtain ⟨hok, hver, hoffs, hmeta, -, -, -, -, hnch, -⟩ := packHeader_ok h5
  have hoff : hd.offsets = true := hoffs.trans ho
  rcases h10 with ⟨hx, -⟩ | ⟨-, hout, -⟩
  · rw [hoff] at hx; cases hx
  have hcn : (chs.length : Int) = hd.nchunks := by
    have : chs.length = items.length := by rw [← h8, List.length_map]
    omega
  have hm : 0 ≤ hd.max_app_chunks := hok.2.2.2.2.2.2.1.1
  have hv := h6.valid
  -- the parts of the two files
  let f := ((baseFile hd sec chs).impl E).function
  let fl := ((baseFile hd sec chs).front E).length
  let offs := Spec.positions f fl (chs.map (·.1))
  let pre := hd.bytes ++ optSecBytes E sec
  let rest := Spec.int64s (List.replicate hd.max_app_chunks.toNat (-1)) ++ Spec.records f (chs.map (·.1))
  have hlen : offs.length = chs.length := by show (Spec.positions _ _ _).length = _; rw [positions_length, List.length_map]
  have hpre : pre.length = 32 + (optSecBytes E sec).length := by
    show (hd.bytes ++ _).length = _
    rw [List.length_append, BloscpackHeader.bytes_length]
  have hps : (packedFile E hd sec chs).secBytes E = optSecBytes E sec := by
    unfold File.secBytes optSecBytes; cases sec <;> rfl
  have hbs : (baseFile hd sec chs).secBytes E = optSecBytes E sec := by
    unfold File.secBytes optSecBytes; cases sec <;> rfl
  have hpo : (packedFile E hd sec chs).offsets = Spec.int64s offs ++ Spec.int64s (List.replicate hd.max_app_chunks.toNat (-1)) := by
    rw [← int64s_append]; exact if_pos hoff
  have hO : out = pre ++ (Spec.int64s offs ++ rest) := by
    rw [hout]
    unfold File.bytes File.front File.body
    rw [hps, hpo]
    show (hd.bytes ++ _) ++ (Spec.records f (chs.map (·.1)) ++ []) = _
    simp [pre, rest]
  have hB : (baseFile hd sec chs).bytes E = pre ++ (Spec.int64s (List.replicate offs.length (-1)) ++ rest) := by
    unfold File.bytes File.front File.body
    rw [hbs]
    have hpl : (baseFile hd sec chs).offsets = Spec.int64s (List.replicate offs.length (-1)) ++
        Spec.int64s (List.replicate hd.max_app_chunks.toNat (-1)) := by
      show placeholder hd = _
      rw [placeholder, if_pos hoff, ← int64s_append, List.replicate_append_replicate]
      congr 2
      omega
    rw [hpl]
    show (hd.bytes ++ _) ++ (Spec.records f (chs.map (·.1)) ++ []) = _
    simp [pre, rest]
  have hfl : fl + (Spec.records f (chs.map (·.1))).length = out.length := by
    have hl : ((baseFile hd sec chs).bytes E).length = out.length := by
      rw [hB, hO]; simp only [List.length_append, int64s_length, List.length_replicate]
    rw [← hl]
    show _ = ((baseFile hd sec chs).front E ++ (Spec.records f (chs.map fun p : Bytes × Bytes => p.1) ++ [])).length
    simp [fl]
  have hrange : ∀ o ∈ offs, 0 ≤ o ∧ o ≤ out.length := by
    intro o ho
    have := positions_le_records f (chs.map (·.1)) fl o ho
    omega
  -- reading the archive on its own
  have hpreF : (packedFile E hd sec chs).Pre E := {
    ok := hok
    version := hver
    meta_flag := hmeta.trans h6.isSome
    sec_ok := hv
    offsets_len := packedFile_offsets_length hcn hm
    offsets_small := h7
    nchunks_le := by show (chs.length : Int) ≤ hd.nchunks; omega
    chunks_ok := fun p hp => L.decompress_compress _ _ _ (h9 p hp) }
  obtain ⟨os, hr1, hr2, -⟩ := readBeginning_at L hpreF [] ((packedFile E hd sec chs).body E ++ (packedFile E hd sec chs).junk) []
  have hos : os = offs := by
    have e1 := hr2 hoff
    have e2 : hd.nchunks.toNat = offs.length := by omega
    have e3 := decodeOffsets_int64s offs (fun o ho => by have := hrange o ho; omega)
      (Spec.int64s (List.replicate hd.max_app_chunks.toNat (-1)))
    rw [hpo, show (packedFile E hd sec chs).header = hd from rfl, e2, e3] at e1
    injection e1 with e1
    exact e1.symm
  have hpos : 1 ≤ offs.length := by omega
  have hrest : 1 ≤ rest.length := by
    obtain ⟨p, ps, hp⟩ : ∃ p ps, chs = p :: ps := by
      have hne : 1 ≤ chs.length := by omega
      cases hchs : chs with
      | nil => rw [hchs] at hne; simp at hne
      | cons p ps => exact ⟨p, ps, rfl⟩
    have h16 := (L.compress_header p.2 j.a p.1 (h9 p (by rw [hp]; simp))).1
    have : rest.length = 8 * hd.max_app_chunks.toNat + (Spec.records f (chs.map (·.1))).length := by
      simp [rest, int64s_length]
    rw [this, hp]
    simp only [Spec.records, List.map_cons, List.flatMap_cons, List.length_append]
    omega
  have hread : (readBeginning E ({ data := out } : FP)).1 = .ok (hd, j.metadata, sec.map (·.header), offs) := by
    rw [hout]
    have : ({ data := (packedFile E hd sec chs).bytes E } : FP) =
        Z [] ((packedFile E hd sec chs).front E ++ ((packedFile E hd sec chs).body E ++ (packedFile E hd sec chs).junk)) [] := rfl
    rw [this, hr1, hos, h6.metadata_eq (F := packedFile E hd sec chs) rfl]
    rfl
  exact ⟨n, c, l, items, hd, sec, m', chs, offs, pre, rest, h1, h2, h3, h4, h5, h6, h7, h8, h9, hoff, rfl, hpre, hO, hB, hpos, hrest,
    hrange, hread⟩

/-- **C117 violated** With offsets, which is the default, packing at the end of a file that holds `A` damages it. Let `out` be the
archive that the same packing gives on its own, `offs` the offsets in it and `k` where they lie. Then `pack` returns without
complaint, but the offsets are put to place `k` of the file and not of the archive: over whatever `A` holds there. The
archive itself is left with the value -1 for each of its offsets. And the file object is left behind the offsets, not at the end of
the archive (even when the file was empty), so what is packed next goes over the chunks of this archive. -/
theorem C117_violated {E : Env μ} (L : E.Laws) {j : PackJob μ} {out : Bytes} (h : j.Alone E out) (ho : j.b.offsets = true)
    (A : Bytes) (hsize : A.length + out.length < 2 ^ 63) :
    ∃ hd mh offs k fp', (readBeginning E ({ data := out } : FP)).1 = .ok (hd, j.metadata, mh, offs) ∧ offs ≠ [] ∧ 32 ≤ k ∧
      k + 8 * offs.length < out.length ∧ (out.drop k).take (8 * offs.length) = Spec.int64s offs ∧
      packNext E j { data := A, pos := A.length } = (.ok (), fp') ∧
      (∀ D, D = A ++ (out.take k ++ (Spec.int64s (List.replicate offs.length (-1)) ++ out.drop (k + 8 * offs.length))) →
        fp'.data = D.take k ++ (Spec.int64s (offs.map (· + (A.length : Int))) ++ D.drop (k + 8 * offs.length))) ∧
      fp'.pos = k + 8 * offs.length := by
  obtain ⟨n, c, l, items, hd, sec, m', chs, offs, pre, rest, h1, h2, h3, h4, h5, h6, h7, h8, h9, hoff, hoffs, hpre, hO, hB, hpos, hrest,
    hrange, hread⟩ := alone_offsets L h ho (by omega)
  have henc : encodeOffsets (Spec.positions ((baseFile hd sec chs).impl E).function
      (A.length + ((baseFile hd sec chs).front E).length) (chs.map (·.1))) = .ok (Spec.int64s (offs.map (· + (A.length : Int)))) := by
    rw [encodeOffsets_iff, positions_shift, ← hoffs]
    refine ⟨?_, rfl⟩
    intro o ho
    obtain ⟨o', ho', rfl⟩ := List.mem_map.1 ho
    have := hrange o' ho'
    omega
  obtain ⟨s, e1, e2, e3⟩ := (pack_at L _ n c l j.metadata j.a j.b j.m h2 items h3 h4 A [] h5 h6 h7 h8 h9).2 hoff _ henc
  have hz : ({ data := A, pos := A.length } : FP) = Z A [] [] := by simp [Z]
  have hrl : (Spec.int64s (offs.map (· + (A.length : Int)))).length = 8 * offs.length := by rw [int64s_length, List.length_map]
  have h8l := int64s_length offs
  refine ⟨hd, sec.map (·.header), offs, pre.length, s.fp, hread, ?_, by omega, ?_, ?_, ?_, ?_, ?_⟩
  · intro hn; rw [hn] at hpos; simp at hpos
  · rw [hO]
    simp only [List.length_append]
    omega
  · rw [hO, List.drop_left, ← h8l, List.take_left]
  · rw [hz]
    unfold packNext
    rw [h1]
    simp only [e1, Except.map]
  · rintro D rfl
    have ht : out.take pre.length = pre := by rw [hO, List.take_left]
    have hdr : out.drop (pre.length + 8 * offs.length) = rest := by
      rw [hO, ← List.drop_drop, List.drop_left, ← h8l, List.drop_left]
    rw [ht, hdr, ← hB, e2, hpre, hrl]
  · rw [e3, hpre, hrl]

/-! ### examples -/

namespace Toy.Streams

def j1 : PackJob Nat :=
  { data := [1, 2, 3], chunk_size := .int 2, metadata := some 5, b := { offsets := false, checksum := "crc32" },
    m := { meta_codec := "None", max_meta_size := .int 12 } }

def j2 : PackJob Nat := { data := [4, 5], b := { offsets := false, checksum := "None" } }

def j3 : PackJob Nat :=
  { data := [1, 2, 3], chunk_size := .int 2, b := { offsets := true, checksum := "None", max_app_chunks := .int 1 } }

def out (j : PackJob Nat) : Bytes :=
  match packBytesToBytes Toy.env j.data j.chunk_size j.metadata j.a j.b j.m with
  | .ok o => o
  | .error _ => []

theorem alone1 : j1.Alone Toy.env (out j1) := by unfold PackJob.Alone; decide +kernel
theorem alone2 : j2.Alone Toy.env (out j2) := by unfold PackJob.Alone; decide +kernel
theorem alone3 : j3.Alone Toy.env (out j3) := by unfold PackJob.Alone; decide +kernel

attribute [local irreducible] PackJob.Alone out

def before : Bytes := [7, 7]

/-- two archives, with and without metadata, behind two other bytes -/
example : ∃ fp', packAll Toy.env ([(j1, out j1), (j2, out j2)].map (·.1)) { data := before, pos := before.length } = (.ok (), fp') ∧
    fp'.data = before ++ ([(j1, out j1), (j2, out j2)].map (·.2)).flatten ∧ fp'.pos = fp'.data.length := by
  have h1 : ∀ p ∈ [(j1, out j1), (j2, out j2)], p.1.Alone Toy.env p.2 := by
    simp only [List.mem_cons, List.not_mem_nil, or_false]
    rintro p (rfl | rfl)
    · exact alone1
    · exact alone2
  have h2 : ∀ p ∈ [(j1, out j1), (j2, out j2)], p.1.b.offsets = false := by
    simp only [List.mem_cons, List.not_mem_nil, or_false]
    rintro p (rfl | rfl) <;> rfl
  have h := C117_behind_partial Toy.laws _ h1 h2 before
  exact h.1

/-- archives with offsets are read one after the other when they were put there some other way -/
example : ∃ fp', unpackAll Toy.env 2 { data := before ++ (([(j3, out j3), (j1, out j1)].map (·.2)).flatten ++ [9]), pos := before.length } =
    (.ok ([(j3, out j3), (j1, out j1)].map fun p => (p.1.metadata, p.1.data)), fp') ∧
    fp'.data = before ++ (([(j3, out j3), (j1, out j1)].map (·.2)).flatten ++ [9]) ∧
    fp'.pos = before.length + ([(j3, out j3), (j1, out j1)].map (·.2)).flatten.length := by
  refine C117_read Toy.laws [(j3, out j3), (j1, out j1)] ?_ before [9]
  simp only [List.mem_cons, List.not_mem_nil, or_false]
  rintro p (rfl | rfl)
  · exact alone3
  · exact alone1

example : (out j3).length = 91 ∧ before.length + (out j3).length < 2 ^ 63 ∧ j3.b.offsets = true := by decide +kernel

/-- the consequence: both calls of `pack` return, but the first archive can no longer be unpacked. Once because the second one
was put over its chunks, once because the offsets of the second one were. -/
example : (packAll Toy.env [j3, j2] { data := [] }).1 = .ok () ∧
    (unpackAll Toy.env 1 { data := (packAll Toy.env [j3, j2] { data := [] }).2.data }).1 = .error .bloscError ∧
    (packAll Toy.env [j2, j3] { data := [] }).1 = .ok () ∧
    (unpackAll Toy.env 1 { data := (packAll Toy.env [j2, j3] { data := [] }).2.data }).1 = .error .bloscError := by
  decide +kernel

end Toy.Streams

end Bloscpack
