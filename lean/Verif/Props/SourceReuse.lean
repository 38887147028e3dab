import Verif.Props.SinkReuse
import Verif.Props.SameFile
import Verif.Props.Replace
import Verif.Props.Canonical
import Verif.Props.Archive
/-
C119: a source that was used before.
-/
namespace Bloscpack
variable {μ : Type}

theorem openSource_at {E : Env μ} (L : E.Laws) {F : File μ} (hv : F.Pre E) (A R : Bytes) (l) :
    openSource E (Z A (F.front E ++ R) l) = (.ok ⟨F.header, F.metadata, F.impl E⟩, Z (A ++ F.front E) R l) := by
  obtain ⟨os, h1, -⟩ := readBeginning_at L hv A R l
  unfold openSource
  rw [Proc.bind_of_ok h1, Proc.bind_of_ok (Proc.ofExcept_apply _ _ |>.trans (by rw [(File.lookup hv).1]))]
  rfl

theorem unpackTo_at {E : Env μ} (L : E.Laws) {F : File μ} (hv : F.Valid E) (B R : Bytes) (l) :
    (⟨F.header, F.metadata, F.impl E⟩ : FPSource μ).unpackTo E (Z B (F.body E ++ R) l) = (.ok (), Z (B ++ F.body E) R l, F.data) := by
  obtain ⟨lo, h2⟩ := unpackLoop_records L (h := F.header) (File.lookup hv.toPre).2.1 F.chunks hv.chunks_ok B R l [] [] 0 0
  have hn : (compressedFPSource F.header (F.impl E)).nchunks.toNat = F.chunks.length + 0 := by
    show F.header.nchunks.toNat = _
    rw [hv.nchunks]; omega
  have ho : ({ data := [] } : FP) = Z [] [] [] := rfl
  unfold FPSource.unpackTo unpack
  rw [hn, ho]
  unfold File.body
  simp only [h2]
  simp [unpackLoop, File.data]

/-- **C119** A source is made on a file object and unpacked. It has the metadata and gives the data of the archive that begins where
the file object was. Unpacking the same source again does not silently give something else: if no further chunk can follow the
archive (less than 16 bytes do), it raises an exception, and nothing is written to the output. -/
theorem C119_twice_partial {E : Env μ} (L : E.Laws) {j : PackJob μ} {out : Bytes} (h : j.Alone E out) (A R : Bytes) (hR : R.length < 16) :
    ∃ src fp1 fp2 e fp3, openSource E { data := A ++ (out ++ R), pos := A.length } = (.ok src, fp1) ∧ src.metadata = j.metadata ∧
      src.unpackTo E fp1 = (.ok (), fp2, j.data) ∧ fp2.pos = A.length + out.length ∧
      src.unpackTo E fp2 = (.error e, fp3, []) := by
  obtain ⟨F, n, c, l', m', rfl, h2, h3, h4, h5, -⟩ := packBytesToBytes_ok L h
  have hb : F.bytes E = F.front E ++ F.body E := by simp [File.bytes, h3]
  have hz : ({ data := A ++ (F.bytes E ++ R), pos := A.length } : FP) = Z A (F.front E ++ (F.body E ++ R)) [] := by
    simp [Z, hb]
  have e1 := openSource_at L h2.toPre A (F.body E ++ R) []
  have e2 := unpackTo_at L h2.toValid (A ++ F.front E) R []
  rw [h4] at e2
  obtain ⟨e, s, hs⟩ := readChunk_short (F.impl E) (A ++ F.front E ++ F.body E) R [] hR
  refine ⟨_, _, _, e, s, by rw [hz, e1], h5, e2, ?_, ?_⟩
  · simp [Z, hb]
  · obtain ⟨init, p, hp, -⟩ := h2.lengths
    have hn : (compressedFPSource F.header (F.impl E)).nchunks.toNat = init.length + 1 := by
      show F.header.nchunks.toNat = _
      rw [h2.nchunks, hp]; simp
    have hx : (compressedFPSource F.header (F.impl E)).next 0 (Z (A ++ F.front E ++ F.body E) R []) = (.error e, s) :=
      Proc.bind_of_error hs
    have hy : (Proc.onFst ((compressedFPSource F.header (F.impl E)).next 0) : Proc (FP × FP) _)
        (Z (A ++ F.front E ++ F.body E) R [], { data := [] }) = (.error e, (s, { data := [] })) := by
      rw [Proc.onFst_apply, hx]
    unfold FPSource.unpackTo unpack
    rw [hn, unpackLoop, Proc.bind_of_error hy]

/-- **C119 (more behind the archive)** Unpacking a source again returns exactly if as many chunks as the archive has, at least one,
follow it, each with the digest that belongs to it (of the last one the digest may be missing at the end of the file), and then gives what these hold (`Spec.Chunks`, Spec/Accept.lean). In all other
cases it raises an exception. -/
theorem C119_again_partial {E : Env μ} (L : E.Laws) {j : PackJob μ} {out : Bytes} (h : j.Alone E out) (A R : Bytes) :
    ∃ src fp1 fp2 n c l, openSource E { data := A ++ (out ++ R), pos := A.length } = (.ok src, fp1) ∧
      src.unpackTo E fp1 = (.ok (), fp2, j.data) ∧
      calculateNchunks j.data.length j.chunk_size = .ok (n, c, l) ∧ 1 ≤ n ∧
      src.impl ∈ checksums E.hashlib ∧ src.impl.name = j.b.checksum ∧
      ∀ out2, (∃ fp3, src.unpackTo E fp2 = (.ok (), fp3, out2)) ↔ Spec.Chunks E src.impl.function R n.toNat out2 := by
  obtain ⟨F, n, c, l, m', rfl, h2, h3, h4, h5, -, h6, h7, -⟩ := packBytesToBytes_ok L h
  have hb : F.bytes E = F.front E ++ F.body E := by simp [File.bytes, h3]
  have hz : ({ data := A ++ (F.bytes E ++ R), pos := A.length } : FP) = Z A (F.front E ++ (F.body E ++ R)) [] := by
    simp [Z, hb]
  have e1 := openSource_at L h2.toPre A (F.body E ++ R) []
  have e2 := unpackTo_at L h2.toValid (A ++ F.front E) R []
  rw [h4] at e2
  obtain ⟨k1, -, -, -, k5, -, -, -, k9, -⟩ := packHeader_ok h7
  refine ⟨_, _, _, n, c, l, by rw [hz, e1], e2, h6, (C02_chunking_covers _ _ _ _ _ h6).2.1, (File.lookup h2.toPre).2.1, ?_, ?_⟩
  · rw [← k5]
    exact (checksumLookup_mem (File.lookup h2.toPre).1).2
  · intro out2
    have := unpackLoop_at E L F.header (File.lookup h2.toPre).2.1 (Z (A ++ F.front E ++ F.body E) R []) n.toNat out2
    rw [show (Z (A ++ F.front E ++ F.body E) R []).data.drop (Z (A ++ F.front E ++ F.body E) R []).pos = R by simp [Z]] at this
    rw [← this]
    unfold FPSource.unpackTo unpack
    have hn : (compressedFPSource F.header (F.impl E) : CompressedSource FP).nchunks.toNat = n.toNat := by
      show F.header.nchunks.toNat = _
      rw [k9]
    simp only [hn]
    generalize unpackLoop (compressedFPSource F.header (F.impl E)) (plainFPSinkPut E) n.toNat 0 _ = r
    obtain ⟨r, s, t⟩ := r
    constructor
    · rintro ⟨fp3, h⟩; cases h; exact ⟨s, t, rfl, rfl⟩
    · rintro ⟨s, t, h, rfl⟩; cases h; exact ⟨_, rfl⟩

/-- **C119 (set back)** Set back to where the chunks begin, the source can be unpacked again, as often as wanted and whatever follows
the archive. -/
theorem C119_rewound_partial {E : Env μ} (L : E.Laws) {j : PackJob μ} {out : Bytes} (h : j.Alone E out) (A R : Bytes) :
    ∃ src fp1, openSource E { data := A ++ (out ++ R), pos := A.length } = (.ok src, fp1) ∧ src.metadata = j.metadata ∧
      ∃ fp2, src.unpackTo E fp1 = (.ok (), fp2, j.data) ∧ { fp2 with pos := fp1.pos } = fp1 := by
  obtain ⟨F, n, c, l', m', rfl, h2, h3, h4, h5, -⟩ := packBytesToBytes_ok L h
  have hb : F.bytes E = F.front E ++ F.body E := by simp [File.bytes, h3]
  have hz : ({ data := A ++ (F.bytes E ++ R), pos := A.length } : FP) = Z A (F.front E ++ (F.body E ++ R)) [] := by
    simp [Z, hb]
  have e1 := openSource_at L h2.toPre A (F.body E ++ R) []
  have e2 := unpackTo_at L h2.toValid (A ++ F.front E) R []
  rw [h4] at e2
  exact ⟨_, _, by rw [hz, e1], h5, _, e2, by simp [Z]⟩

/-! ### packing -/

theorem readMany_moves (sizes : List Nat) (A B R : Bytes) (l l') :
    (readMany (sizes.map (fun (k : Nat) => (k : Int))) (Z A R l)).2 = Z (A ++ R.take sizes.sum) (R.drop sizes.sum) l ∧
    (readMany (sizes.map (fun (k : Nat) => (k : Int))) (Z A R l)).1 =
      (readMany (sizes.map (fun (k : Nat) => (k : Int))) (Z B R l')).1 := by
  have hrd : ∀ (A R : Bytes) (n : Nat) (l), (Z A R l).read n = (R.take n, Z (A ++ R.take n) (R.drop n) l) := by
    intro A R n l
    have := fpRead_Z A R l n
    simp only [fpRead_eq, Prod.mk.injEq, Except.ok.injEq] at this
    exact Prod.ext this.1 this.2
  induction sizes generalizing A B R with
  | nil => simp [readMany]
  | cons k sizes ih =>
    obtain ⟨h1, h2⟩ := ih (A ++ R.take k) (B ++ R.take k) (R.drop k)
    simp only [List.map_cons, readMany, hrd, h1, h2, List.sum_cons, List.take_add, List.drop_drop, List.append_assoc, and_self]

/-- the sizes that are asked for add up to the length of the data -/
theorem sizes_sum {size : Nat} {cs : ChunkSizeArg} {n c l : Int} (hc : calculateNchunks size cs = .ok (n, c, l)) :
    ∃ sizes : List Nat, sizes.map (fun (k : Nat) => (k : Int)) = List.replicate (n - 1).toNat c ++ [l] ∧ sizes.sum = size ∧
      sizes.length = n.toNat ∧ 1 ≤ n := by
  obtain ⟨h1, h2, -, h4, -, h5, h6⟩ := C02_chunking_covers _ _ _ _ _ hc
  have hcl : 0 ≤ l ∧ 0 ≤ c := by
    by_cases hz : (size : Int) = 0
    · have := h5 hz; omega
    · have := (h6 hz).1; omega
  have e1 : ((n - 1).toNat : Int) = n - 1 := Int.toNat_of_nonneg (by omega)
  have e2 : (c.toNat : Int) = c := Int.toNat_of_nonneg hcl.2
  have e3 : (l.toNat : Int) = l := Int.toNat_of_nonneg hcl.1
  refine ⟨List.replicate (n - 1).toNat c.toNat ++ [l.toNat], ?_, ?_, ?_, h2⟩
  · rw [List.map_append, List.map_replicate, List.map_singleton, e2, e3]
  · rw [List.sum_append, List.sum_replicate_nat]
    have : (size : Int) = (((n - 1).toNat * c.toNat + l.toNat : Nat) : Int) := by
      rw [Int.natCast_add, Int.natCast_mul, e1, e2, e3, ← h1, Int.mul_comm]
    rw [List.sum_singleton]
    omega
  · simp; omega

/-- smaller chunks are at smaller positions -/
theorem positions_smaller {f : Bytes → Bytes} {z : Nat} (hf : ∀ x, (f x).length = z) (k : Nat) {B : Int} : ∀ {cs ds : List Bytes} {s t : Nat},
    cs.length = ds.length → (∀ c ∈ cs, c.length ≤ k) → (∀ d ∈ ds, k ≤ d.length) → s ≤ t → (∀ o ∈ Spec.positions f t ds, o ≤ B) →
    ∀ o ∈ Spec.positions f s cs, o ≤ B
  | [], _, _, _, _, _, _, _, _ => by simp [Spec.positions]
  | _ :: _, [], _, _, h, _, _, _, _ => by cases h
  | c :: cs, d :: ds, s, t, h, hc, hd, hst, hB => by
    have h1 := hc c (by simp)
    have h2 := hd d (by simp)
    have h3 := hB t (by simp [Spec.positions])
    intro o ho
    simp only [Spec.positions, List.mem_cons] at ho
    rcases ho with rfl | ho
    · omega
    · exact positions_smaller hf k (t := t + d.length + (f d).length) (by simpa using h) (fun x hx => hc x (by simp [hx])) (fun x hx => hd x (by simp [hx]))
        (by rw [hf, hf]; omega) (fun x hx => hB x (by simp [Spec.positions, hx])) o ho

/-- if packing some pieces returns, so does packing as many empty ones -/
theorem pack_empty_returns {E : Env μ} (L : E.Laws) {src src' : PlainSource} {n c l : Int} {md : Option μ} {a : BloscArgs} {b : BloscpackArgs}
    {m m' : MetadataArgs} (hn : 1 ≤ n) {items items' : List Bytes} (hsrc : src c l n = ⟨items, none⟩) (hlen : items.length = n.toNat)
    (hsrc' : src' c l n = ⟨items', none⟩) (hlen' : items'.length = n.toNat) (hemp : ∀ d ∈ items', d = []) {s : FPSink}
    (h : pack E src (compressedFPSink E) n c l md a b m { fp := { data := [] } } = (.ok m', s)) :
    ∃ m'' s', pack E src' (compressedFPSink E) n c l md a b m { fp := { data := [] } } = (.ok m'', s') := by
  have key : ∀ hd sec chs, packHeader n c l md a b = .ok hd → SecFor E md m sec m' → offsetsLen hd < 2 ^ 63 → chs.map (·.2) = items →
      (∀ p ∈ chs, E.compress p.2 a = .ok p.1) → (hd.offsets = true → ∃ raw, encodeOffsets (Spec.positions
        ((baseFile hd sec chs).impl E).function ((baseFile hd sec chs).front E).length (chs.map (·.1))) = .ok raw) →
      ∃ m'' s', pack E src' (compressedFPSink E) n c l md a b m { fp := { data := [] } } = (.ok m'', s') := by
    intro hd sec chs hh hs hb hi hc ho
    have hcl : chs.length = n.toNat := by rw [← hlen, ← hi]; simp
    have hva : a.Valid E := by
      obtain ⟨p, hp⟩ : ∃ p, p ∈ chs := List.exists_mem_of_length_pos (by omega)
      exact (L.compress_reject _ _ _ (hc p hp)).1
    rcases pack_run L src' n c l md a b m hn items' hsrc' hlen' with ⟨e, h1, -⟩ | ⟨hd', h1, h2⟩
    · rw [hh] at h1; cases h1
    rw [hh] at h1
    cases h1
    generalize pack E src' (compressedFPSink E) n c l md a b m { fp := { data := [] } } = r at h2
    obtain ⟨r, s'⟩ := r
    simp only at h2
    cases r with
    | ok m'' => exact ⟨m'', s', rfl⟩
    | error e =>
      exfalso
      generalize s'.fp = fp at h2
      cases h2 with
      | metadata _ _ hm he _ =>
        rcases hs with ⟨rfl, -⟩ | ⟨S, -, -, hS, -⟩
        · cases hm
        · rw [hS] at he; cases he
      | space _ _ _ hb' _ _ => omega
      | chunk _ _ _ _ chs' d rest _ hi' _ he _ _ =>
        have hd0 := hemp d (by rw [← hi']; simp)
        subst hd0
        obtain ⟨x, hx⟩ := L.compress_total [] a hva (by decide)
        rw [hx] at he; cases he
      | offset sec' _ hs' _ chs' _ hi' hc' ho' he _ _ _ =>
        obtain ⟨raw, hraw⟩ := ho ho'
        obtain ⟨hok, -⟩ := packHeader_ok hh
        obtain ⟨impl, himpl, -, -⟩ := checksumLookup_of (hl := E.hashlib) hok.2.1
        have himpl' : hd.checksumImpl E = .ok impl := himpl
        have hbi : ∀ (sec : Option (Section μ)) chs, (baseFile hd sec chs).impl E = impl := by
          intro sec chs; simp [File.impl, baseFile, himpl']
        have hfr : (baseFile hd sec' chs').front E = (baseFile hd sec chs).front E := by
          have := SecFor.bytes_det hs' hs
          unfold File.front
          show hd.bytes ++ (optSecBytes E sec' ++ placeholder hd) = hd.bytes ++ (optSecBytes E sec ++ placeholder hd)
          rw [this]
        rw [hbi, hfr] at he
        rw [hbi] at hraw
        have hpos := ((encodeOffsets_iff _ _).1 hraw).1
        have hle := positions_smaller (f := impl.function) (z := impl.size) (Hash.size_eq L (checksumLookup_mem himpl).1) 16
          (B := 2 ^ 63 - 1) (cs := chs'.map (·.1)) (ds := chs.map (·.1)) (s := ((baseFile hd sec chs).front E).length)
          (t := ((baseFile hd sec chs).front E).length)
          (by have := congrArg List.length hi'; simp at this; simp; omega)
          (by
            intro c hc0
            obtain ⟨p, hp, rfl⟩ := List.mem_map.1 hc0
            have h0 := hemp p.2 (by rw [← hi']; exact List.mem_map.2 ⟨p, hp, rfl⟩)
            have := (L.compress_header _ _ _ (hc' p hp)).2.1
            rw [h0] at this
            simpa using this)
          (by
            intro c hc0
            obtain ⟨p, hp, rfl⟩ := List.mem_map.1 hc0
            exact (L.compress_header _ _ _ (hc p hp)).1)
          (Nat.le_refl _) (fun o ho => (hpos o ho).2)
        have := (encodeOffsets_iff _ _).2 ⟨fun o ho => ⟨by have := positions_nonneg _ _ _ o ho; omega, hle o ho⟩, rfl⟩
        rw [this] at he
        cases he
  rcases pack_run L src n c l md a b m hn items hsrc hlen with ⟨e, -, h1⟩ | ⟨hd, h1, h2⟩
  · rw [h1] at h; cases h
  · rw [h] at h2
    cases h2 with
    | plain sec _ hs hb chs hi hc ho _ hfp => exact key hd sec chs h1 hs hb hi hc (fun h => by rw [ho] at h; cases h)
    | full sec _ hs hb chs hi hc ho raw he _ hdd hl hp => exact key hd sec chs h1 hs hb hi hc (fun _ => ⟨raw, he⟩)

/-- **C119 is violated by packing**: A file object is where the data begins. Packing from a source on it gives the archive, and leaves
the file object at the end of the data. Packing from the source again returns as well, and gives an archive with the same metadata and no
data at all, whatever the data was; no exception tells. -/
theorem C119_violated {E : Env μ} (L : E.Laws) {j : PackJob μ} {out : Bytes} (h : j.Alone E out) (A : Bytes) :
    ∃ fp1, packFrom E j { data := A ++ j.data, pos := A.length } = (.ok (), out, fp1) ∧
      fp1.pos = A.length + j.data.length ∧
      ∃ out2 fp2, packFrom E j fp1 = (.ok (), out2, fp2) ∧ unpackBytesFromBytes E out2 = .ok ([], j.metadata) := by
  unfold PackJob.Alone at h
  rw [packBytesToBytes_eq] at h
  unfold packBytes at h
  unfold packFrom
  generalize hq : calculateNchunks j.data.length j.chunk_size = q at h ⊢
  match q, hq with
  | .error e, _ => cases h
  | .ok (n, c, l), hq =>
    obtain ⟨sizes, s1, s2, s3, s4⟩ := sizes_sum hq
    obtain ⟨r1, r2⟩ := readMany_moves sizes A [] j.data [] []
    rw [s1] at r1 r2
    have hz : ({ data := A ++ j.data, pos := A.length } : FP) = Z A j.data [] := rfl
    have hsrc : plainFPSource (Z A j.data []) c l n = plainFPSource { data := j.data } c l n := by
      unfold plainFPSource
      rw [r2]; rfl
    have hpk : ∀ s : FPSink, pack E (plainFPSource (Z A j.data [])) (compressedFPSink E) n c l j.metadata j.a j.b j.m s =
        pack E (plainFPSource { data := j.data }) (compressedFPSink E) n c l j.metadata j.a j.b j.m s := by
      intro s
      unfold pack
      rw [hsrc]
    simp only at h
    simp only [hz, hpk, r1, s2]
    generalize hr1 : pack E (plainFPSource { data := j.data }) (compressedFPSink E) n c l j.metadata j.a j.b j.m _ = r at h
    obtain ⟨r, s⟩ := r
    cases r with
    | error e => cases h
    | ok m' =>
      simp only at h
      split at h
      · cases h
      · cases h
        refine ⟨_, rfl, by simp [Z], ?_⟩
        rw [show j.data.take j.data.length = j.data by simp, show j.data.drop j.data.length = [] by simp]
        obtain ⟨t1, t2⟩ := readMany_take sizes (A ++ j.data) [] []
        obtain ⟨-, u2⟩ := readMany_take sizes [] j.data []
        rw [s1] at t1 t2 u2
        have hemp : ∀ d ∈ (readMany (List.replicate (n - 1).toNat c ++ [l]) (Z (A ++ j.data) [] [])).1, d = [] := by
          rw [List.take_nil] at t1
          exact List.flatten_eq_nil_iff.1 t1
        obtain ⟨m'', s', hr⟩ := pack_empty_returns L (src' := plainFPSource (Z (A ++ j.data) [] [])) s4 rfl
          (by rw [← s3]; exact u2) rfl (by rw [t2, s3]) hemp hr1
        rw [hr]
        refine ⟨_, _, rfl, ?_⟩
        have := (C67_holds_what_was_read E L _ n c l j.metadata j.a j.b j.m m'' s4 _ rfl (by rw [t2, s3]) s' hr).1
        rw [t1] at this
        simpa using this

/-! ### examples -/

namespace Toy.Streams

example : ∃ src fp1 fp2 e fp3, openSource Toy.env { data := before ++ (out j4 ++ [9]), pos := before.length } = (.ok src, fp1) ∧
    src.metadata = j4.metadata ∧ src.unpackTo Toy.env fp1 = (.ok (), fp2, j4.data) ∧ fp2.pos = before.length + (out j4).length ∧
    src.unpackTo Toy.env fp2 = (.error e, fp3, []) :=
  C119_twice_partial Toy.laws alone4 before [9] (by decide)

example : ∃ src fp1 fp2 n c l, openSource Toy.env { data := before ++ (out j4 ++ out j5), pos := before.length } = (.ok src, fp1) ∧
    src.unpackTo Toy.env fp1 = (.ok (), fp2, j4.data) ∧ calculateNchunks j4.data.length j4.chunk_size = .ok (n, c, l) ∧ 1 ≤ n ∧
    src.impl ∈ checksums Toy.env.hashlib ∧ src.impl.name = j4.b.checksum ∧
    ∀ out2, (∃ fp3, src.unpackTo Toy.env fp2 = (.ok (), fp3, out2)) ↔ Spec.Chunks Toy.env src.impl.function (out j5) n.toNat out2 :=
  C119_again_partial Toy.laws alone4 before (out j5)

-- five bytes of data, packed twice from the same source
example : (let r := packFrom Toy.env { data := [1, 2, 3, 4, 5], chunk_size := .int 2 } { data := [1, 2, 3, 4, 5] }
    let r2 := packFrom Toy.env { data := [1, 2, 3, 4, 5], chunk_size := .int 2 } r.2.2
    (r.1.toBool, unpackBytesFromBytes Toy.env r.2.1, r2.1.toBool, unpackBytesFromBytes Toy.env r2.2.1)) =
    (true, .ok ([1, 2, 3, 4, 5], none), true, .ok ([], none)) := by
  decide +kernel

end Toy.Streams

end Bloscpack
