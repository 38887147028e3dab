import Verif.Model.EntryPoints
import Verif.Lemmas.PackTotal
import Verif.Lemmas.Locate
import Verif.Lemmas.InMemory
import Verif.Props.MetaHeaderStrict
import Verif.Examples.Toy
/-
C01 (round trip), C12 (offsets), C37 (size), C46 (containers).
-/
namespace Bloscpack
variable {μ : Type}

/-! ### the entry points in terms of their common part -/

theorem packBytesToBytes_eq (E : Env μ) (data : Bytes) (cs : ChunkSizeArg) (md : Option μ) (a : BloscArgs)
    (b : BloscpackArgs) (m : MetadataArgs) : packBytesToBytes E data cs md a b m =
      match packBytes E data cs md a b m with
      | (.ok _, some fp) => if fp.pos = 0 then .error .zeroDivisionError else .ok fp.data
      | (.ok _, none) => .error .zeroDivisionError
      | (.error e, _) => .error e := by
  unfold packBytesToBytes packBytes
  cases calculateNchunks data.length cs with
  | error e => rfl
  | ok r =>
    obtain ⟨n, c, l⟩ := r
    simp only
    generalize pack E _ _ n c l md a b m _ = q
    obtain ⟨r, s⟩ := q
    cases r <;> rfl

/-- what a successful `pack_bytes_to_bytes` returned -/
theorem packBytesToBytes_ok {E : Env μ} (L : E.Laws) {data : Bytes} {cs : ChunkSizeArg} {md : Option μ} {a : BloscArgs}
    {b : BloscpackArgs} {m : MetadataArgs} {out : Bytes} (h : packBytesToBytes E data cs md a b m = .ok out) :
    ∃ (F : File μ) (n c l : Int) (m' : MetadataArgs), out = F.bytes E ∧ F.Conforming E ∧ F.junk = [] ∧ F.data = data ∧
      F.metadata = md ∧ SecFor E md m F.sec m' ∧ calculateNchunks data.length cs = .ok (n, c, l) ∧
      packHeader n c l md a b = .ok F.header ∧ (∀ p ∈ F.chunks, E.compress p.2 a = .ok p.1) := by
  rw [packBytesToBytes_eq] at h
  generalize hq : packBytes E data cs md a b m = q at h
  obtain ⟨r, o⟩ := q
  cases r with
  | error e => cases h
  | ok m' =>
    obtain ⟨fp, F, n, c, l, rfl, h2, h3, h4, h5, h6, h7, h8, h9, h10, h11⟩ := packBytes_ok L hq
    simp only [if_neg h11, Except.ok.injEq] at h
    exact ⟨F, n, c, l, m', by rw [← h, h2], h3, h4, h5, h6, h7, h8, h9, h10⟩

/-! ### C01 -/

theorem packed_unpackFrom {E : Env μ} (L : E.Laws) {data : Bytes} {cs : ChunkSizeArg} {md : Option μ} {a : BloscArgs}
    {b : BloscpackArgs} {m : MetadataArgs} {out : Bytes} (h : packBytesToBytes E data cs md a b m = .ok out) :
    unpackFrom E out = (.ok md, data) := by
  obtain ⟨F, n, c, l, m', rfl, h1, -, rfl, rfl, -⟩ := packBytesToBytes_ok L h
  exact unpackFrom_file L h1.toValid

/-- C01: whatever `pack_bytes_to_bytes` returns, `unpack_bytes_from_bytes` turns back into the data and metadata. -/
theorem C01_roundtrip (E : Env μ) (L : E.Laws) (data : Bytes) (cs : ChunkSizeArg) (md : Option μ) (a : BloscArgs)
    (b : BloscpackArgs) (m : MetadataArgs) (out : Bytes) (h : packBytesToBytes E data cs md a b m = .ok out) :
    unpackBytesFromBytes E out = .ok (data, md) := by
  exact unpackBytes_ok (packed_unpackFrom L h)

/-- C01: with valid settings and storable metadata, packing does return. -/
theorem C01_total (E : Env μ) (L : E.Laws) (data : Bytes) (cs : ChunkSizeArg) (md : Option μ) (a : BloscArgs)
    (b : BloscpackArgs) (m : MetadataArgs) (hg : Spec.GoodSettings E data.length cs a b) (hm : Spec.GoodMetadata E md m) :
    ∃ out, packBytesToBytes E data cs md a b m = .ok out ∧ unpackBytesFromBytes E out = .ok (data, md) := by
  obtain ⟨m', fp, h⟩ := packBytes_total L data cs md a b m hg hm
  obtain ⟨fp', -, -, -, -, h1, -, -, -, -, -, -, -, -, -, h11⟩ := packBytes_ok L h
  cases h1
  have : packBytesToBytes E data cs md a b m = .ok fp.data := by
    rw [packBytesToBytes_eq, h]; simp only [if_neg h11]
  exact ⟨_, this, C01_roundtrip E L _ _ _ _ _ _ _ this⟩

/-- the default settings are valid for every input below 2^50 bytes -/
theorem C01_defaults (E : Env μ) (hc : "blosclz" ∈ E.cnames) (size : Nat) (h : size < 2 ^ 50) :
    Spec.GoodSettings E size DEFAULT_CHUNK_SIZE {} {} where
  small := h
  chunk := fun _ => ⟨1048576, .inr ⟨['1', 'M'], rfl, by decide +kernel⟩, by decide, by decide⟩
  blosc := ⟨by decide, by decide, by decide, by decide, by decide, by decide, hc⟩
  checksum := by decide
  apps := fun _ n h1 h2 => ⟨10 * n, .inr ⟨_, rfl, rfl⟩, by omega, by omega⟩

/-- the hypotheses of C01 hold of a file with three chunks, offsets, checksums and compressed metadata -/
example : Spec.GoodSettings Toy.env 5 (.int 2) {} {} ∧ Spec.GoodMetadata Toy.env (some 9) {} := by
  refine ⟨⟨by decide, fun _ => ⟨2, .inl rfl, by decide, by decide⟩, by decide, by decide,
    fun _ n h1 h2 => ⟨10 * n, .inr ⟨_, rfl, rfl⟩, by omega, by omega⟩⟩, .inr ⟨rfl, by decide, by decide, by decide, by decide,
    _, 100, rfl, .inr ⟨_, rfl, rfl⟩, by decide, by decide⟩⟩

/-- and the model really runs -/
example : (packBytesToBytes Toy.env [1, 2, 3, 4, 5] (.int 2) (some 9) {} { max_app_chunks := .int 1 }
    { max_meta_size := .int 12 }).toOption.map List.length = some 177 := by
  decide +kernel

/-! ### C12 -/

/-- C12: in a file packed with offsets, every entry of the table is the position of its chunk. -/
theorem C12_offsets_exact (E : Env μ) (L : E.Laws) (data : Bytes) (cs : ChunkSizeArg) (md : Option μ) (a : BloscArgs)
    (b : BloscpackArgs) (m : MetadataArgs) (out : Bytes) (hb : b.offsets = true)
    (h : packBytesToBytes E data cs md a b m = .ok out) : Spec.OffsetsExact E out data := by
  obtain ⟨F, n, c, l, m', rfl, h1, -, rfl, rfl, -, -, h2, -⟩ := packBytesToBytes_ok L h
  exact h1.offsets_exact L (by rw [(packHeader_ok h2).2.2.1, hb])

/-! ### C37 -/

/-- the number of bytes of a metadata section, from its header (0 without one) -/
def Spec.sectionSize (mh : Option MetadataHeader) : Int :=
  match mh with
  | none => 0
  | some mh => 32 + mh.max_meta_size + Spec.digestSize mh.meta_checksum

theorem records_length {E : Env μ} (L : E.Laws) {impl : Hash} (hi : impl ∈ checksums E.hashlib) (cs : List Bytes) :
    (Spec.records impl.function cs).length = (cs.map List.length).sum + cs.length * impl.size := by
  induction cs with
  | nil => simp
  | cons c cs ih =>
    have := Hash.size_eq L hi c
    simp only [records_cons, List.length_append, ih, List.map_cons, List.sum_cons, List.length_cons, Nat.succ_mul]
    omega

/-- C37: the exact size of a packed file: 32, the metadata section announced by its header, 8 for each existing or
reserved offset, and the compressed chunks with their digests. -/
theorem C37_size (E : Env μ) (L : E.Laws) (data : Bytes) (cs : ChunkSizeArg) (md : Option μ) (a : BloscArgs)
    (b : BloscpackArgs) (m : MetadataArgs) (out : Bytes) (h : packBytesToBytes E data cs md a b m = .ok out) :
    ∃ hd mh os fp, ∃ chunks : List Bytes, readBeginning E { data := out } = (.ok (hd, md, mh, os), fp) ∧
      (chunks.length : Int) = hd.nchunks ∧
      (∀ i (hi : i < chunks.length),
        E.compress (slice data (i * hd.chunk_size.toNat) ((i + 1) * hd.chunk_size.toNat)) a = .ok chunks[i]) ∧
      (out.length : Int) = 32 + Spec.sectionSize mh + (if b.offsets then 8 * (hd.nchunks + hd.max_app_chunks) else 0) +
        (chunks.map List.length).sum + hd.nchunks * Spec.digestSize b.checksum ∧
      (out.length : Int) ≤ 32 + Spec.sectionSize mh + (if b.offsets then 8 * (hd.nchunks + hd.max_app_chunks) else 0) +
        data.length + hd.nchunks * (16 + Spec.digestSize b.checksum) := by
  obtain ⟨F, n, c, l, m', rfl, h1, hj, rfl, rfl, -, -, h2, h3⟩ := packBytesToBytes_ok L h
  obtain ⟨-, -, g3, -, g5, -⟩ := packHeader_ok h2
  obtain ⟨os, hr, -⟩ := readBeginning_file L h1.toPre (F.body E ++ F.junk) []
  obtain ⟨-, hl2, -, hl4⟩ := File.lookup h1.toPre
  have hnch := h1.nchunks
  have hm := h1.ok.2.2.2.2.2.2.1.1
  have hsec : ((F.secBytes E).length : Int) = Spec.sectionSize (F.sec.map (·.header)) := by
    unfold File.secBytes Spec.sectionSize
    cases hs : F.sec with
    | none => rfl
    | some s =>
      have hv := h1.sec_ok s hs
      have : (s.impl E).size = Spec.digestSize s.header.meta_checksum := by
        obtain ⟨h, e1, -, e3⟩ := checksumLookup_of (hl := E.hashlib) hv.ok.2.2.1
        have e0 := (Section.lookup hv).1
        rw [e1] at e0; cases e0; exact e3
      simp only [Option.map_some]
      rw [Section.bytes_length L hv, this]
  have hoff : (F.offsets.length : Int) = if b.offsets then 8 * (F.header.nchunks + F.header.max_app_chunks) else 0 := by
    rw [h1.offsets_len, offsetsLen, ← g3]
    cases F.header.offsets <;> simp
    omega
  have hbody := records_length L hl2 (F.chunks.map (·.1))
  have hbody2 := records_length_le L hl2 a F.chunks h3
  rw [hl4, g5] at hbody hbody2
  have hlen : ((F.bytes E).length : Int) = 32 + Spec.sectionSize (F.sec.map (·.header)) +
      (if b.offsets then 8 * (F.header.nchunks + F.header.max_app_chunks) else 0) + (F.body E).length := by
    unfold File.bytes File.front
    simp only [List.length_append, BloscpackHeader.bytes_length, hj, List.length_nil]
    omega
  refine ⟨F.header, _, os, _, F.chunks.map (·.1), hr, by rw [List.length_map, hnch], ?_, ?_, ?_⟩
  · intro i hi
    have hi' : i < F.chunks.length := by simpa using hi
    rw [List.getElem_map, ← h1.chunk_slice i hi']
    exact h3 _ (List.getElem_mem hi')
  · rw [hlen, File.body, hbody, hnch, List.length_map, Int.natCast_add, Int.natCast_mul]
    simp only [Int.add_assoc]
  · rw [hlen, hnch]
    have e2 : (F.chunks.length : Int) * (16 + Spec.digestSize b.checksum) =
      ((F.chunks.length * (16 + Spec.digestSize b.checksum) : Nat) : Int) := by rw [Int.natCast_mul, Int.natCast_add]; rfl
    have e3 : (F.body E).length ≤ F.data.length + F.chunks.length * (16 + Spec.digestSize b.checksum) := hbody2
    rw [e2]; omega

/-! ### C46 -/

theorem current_put_ne {fs : FS} {i o : String} {d : Bytes} (hio : i ≠ o) (h : fs.files i = some d) (x : Bytes) :
    (fs.put o x).current i = d := by
  simp [FS.current, FS.put, hio, h]

theorem current_put_self (fs : FS) (o : String) (x : Bytes) : (fs.put o x).current o = x := by
  simp [FS.current, FS.put]

theorem getsize_put (fs : FS) (name : String) (d : Bytes) : (fs.put name d).getsize name = .ok d.length := by
  simp [FS.getsize, FS.put]

theorem put_put (fs : FS) (name : String) (d e : Bytes) : (fs.put name d).put name e = fs.put name e := by
  simp only [FS.put]
  congr 1
  funext x
  split <;> rfl

/-- `pack_bytes_to_file` in terms of the common part -/
theorem packBytesToFile_eq (E : Env μ) (L : E.Laws) (fs : FS) (data : Bytes) (o : String) (cs : ChunkSizeArg) (md : Option μ) (a : BloscArgs)
    (b : BloscpackArgs) (m : MetadataArgs) (ho : fs.canWrite o = true) : packBytesToFile E fs data o cs md a b m =
      match packBytes E data cs md a b m with
      | (r, some fp) => (r, fs.put o fp.data)
      | (r, none) => (r, fs) := by
  have hok := @packBytes_ok μ E L data cs md a b m
  unfold packBytesToFile
  unfold packBytes at hok ⊢
  generalize calculateNchunks data.length cs = q0 at hok ⊢
  cases q0 with
  | error e => rfl
  | ok r =>
    obtain ⟨n, c, l⟩ := r
    simp only [FS.openWrite, ho, if_true] at hok ⊢
    generalize pack E _ _ n c l md a b m _ = q at hok ⊢
    obtain ⟨r, s⟩ := q
    cases r with
    | error e => simp only [put_put]
    | ok m' =>
      obtain ⟨fp, F, -, -, -, h1, h2, -⟩ := hok rfl
      cases h1
      simp only [getsize_put, put_put]
      have : s.fp.data.length ≠ 0 := by
        rw [h2, File.bytes, File.front, List.length_append, List.length_append, BloscpackHeader.bytes_length]; omega
      cases hl : s.fp.data.length with
      | zero => exact absurd hl this
      | succ k => rfl

theorem packFileToFile_eq (E : Env μ) {fs : FS} {i o : String} {data : Bytes} (cs : ChunkSizeArg)
    (md : Option μ) (a : BloscArgs) (b : BloscpackArgs) (m : MetadataArgs) (hi : fs.files i = some data)
    (ho : fs.canWrite o = true) (hio : i ≠ o) :
    packFileToFile E fs i o cs md a b m = packBytesToFile E fs data o cs md a b m := by
  unfold packFileToFile packBytesToFile
  simp only [FS.getsize, FS.openRead, FS.openWrite, hi, ho, if_true, current_put_ne hio hi]

/-- C46: for the same content and settings, packing a file to a file does exactly what packing the bytes to a file does
(same result or exception, same file system afterwards), and packing bytes to bytes returns the contents of that file,
or raises the same exception. -/
theorem C46_pack_agree (E : Env μ) (L : E.Laws) (fs : FS) (i o : String) (data : Bytes) (cs : ChunkSizeArg)
    (md : Option μ) (a : BloscArgs) (b : BloscpackArgs) (m : MetadataArgs) (hi : fs.files i = some data)
    (ho : fs.canWrite o = true) (hio : i ≠ o) :
    packFileToFile E fs i o cs md a b m = packBytesToFile E fs data o cs md a b m ∧
    (∀ out, packBytesToBytes E data cs md a b m = .ok out ↔
      ∃ m' fs', packBytesToFile E fs data o cs md a b m = (.ok m', fs') ∧ fs'.files o = some out) ∧
    (∀ e, packBytesToBytes E data cs md a b m = .error e ↔
      ∃ fs', packBytesToFile E fs data o cs md a b m = (.error e, fs')) ∧
    (∀ x, x ≠ o → (packFileToFile E fs i o cs md a b m).2.files x = fs.files x) := by
  have h1 := packFileToFile_eq E cs md a b m hi ho hio
  have h2 := packBytesToFile_eq E L fs data o cs md a b m ho
  have h3 := packBytesToBytes_eq E data cs md a b m
  have hok := @packBytes_ok μ E L data cs md a b m
  rw [h1, h2, h3]
  generalize packBytes E data cs md a b m = q at hok ⊢
  obtain ⟨r, out⟩ := q
  cases r with
  | error e =>
    cases out with
    | none => simp
    | some fp =>
      refine ⟨rfl, by simp, by simp, ?_⟩
      intro x hx; simp [FS.put, hx]
  | ok m' =>
    obtain ⟨fp, -, -, -, -, rfl, -, -, -, -, -, -, -, -, -, hp⟩ := hok rfl
    simp only [if_neg hp]
    refine ⟨trivial, ?_, by simp, ?_⟩
    · intro out
      simp only [Except.ok.injEq, Prod.mk.injEq]
      constructor
      · rintro rfl; exact ⟨_, _, ⟨rfl, rfl⟩, by simp [FS.put]⟩
      · rintro ⟨_, fs', ⟨-, rfl⟩, h⟩; simpa [FS.put] using h
    · intro x hx; simp [FS.put, hx]

/-- unpacking from a file, as bytes -/
theorem unpackBytesFromFile_eq (E : Env μ) {fs : FS} {i : String} {bytes : Bytes} (hi : fs.files i = some bytes) :
    unpackBytesFromFile E fs i = (match unpackFrom E bytes with
      | (.ok m, out) => .ok (out, m)
      | (.error e, _) => .error e) := by
  unfold unpackBytesFromFile
  simp only [FS.openRead, hi]
  rcases unpackFrom E bytes with ⟨r, o⟩
  cases r <;> rfl

/-- C46: for any contents (valid or not) of a file the two functions that unpack files agree on the result or on the exception, and
`unpack_file_from_file` leaves every other file alone. -/
theorem C46_unpack_files (E : Env μ) (fs : FS) (i o : String) (bytes : Bytes) (hi : fs.files i = some bytes)
    (ho : fs.canWrite o = true) (hio : i ≠ o) :
    (∀ data md, unpackBytesFromFile E fs i = .ok (data, md) ↔
      ∃ fs', unpackFileFromFile E fs i o = (.ok md, fs') ∧ fs'.files o = some data) ∧
    (∀ e, unpackBytesFromFile E fs i = .error e ↔ ∃ fs', unpackFileFromFile E fs i o = (.error e, fs')) ∧
    (∀ x, x ≠ o → (unpackFileFromFile E fs i o).2.files x = fs.files x) := by
  have h0 : bytes = [] → unpackFrom E bytes = (.error .valueError, []) := by
    rintro rfl
    unfold unpackFrom unpackFP
    have : readBeginning E { data := [] } = (.error .valueError, { data := [] }) := rfl
    rw [this]
  rw [unpackBytesFromFile_eq E hi]
  unfold unpackFileFromFile
  simp only [FS.getsize, FS.openRead, hi, FS.openWrite, ho, if_true, current_put_ne hio hi]
  generalize unpackFrom E bytes = q at h0 ⊢
  obtain ⟨r, out⟩ := q
  cases r with
  | error e =>
    refine ⟨by simp, by simp, ?_⟩
    intro x hx; simp [FS.put, hx]
  | ok md =>
    have hne : bytes.length ≠ 0 := by
      intro h
      have := h0 (List.eq_nil_of_length_eq_zero h)
      cases this
    simp only [if_neg hne]
    refine ⟨?_, by simp, ?_⟩
    · intro data md'
      simp only [Except.ok.injEq, Prod.mk.injEq]
      constructor
      · rintro ⟨rfl, rfl⟩; exact ⟨_, ⟨rfl, rfl⟩, by simp [FS.put]⟩
      · rintro ⟨fs', ⟨rfl, rfl⟩, h⟩; simp [FS.put] at h; exact ⟨h, rfl⟩
    · intro x hx; simp [FS.put, hx]

/-- the sizes read from a metadata header are bytes 16-19 and 20-23 -/
theorem metaSizes_of {b : Bytes} {h : MetadataHeader} (hd : MetadataHeader.decode b = .ok h) :
    h.max_meta_size = (leDecode (slice b 16 20) : Int) ∧ h.meta_comp_size = (leDecode (slice b 20 24) : Int) := by
  have hl := (MetadataHeader.decode_ok hd).2
  unfold MetadataHeader.decode at hd
  rw [if_neg (by simp [hl])] at hd
  simp only [Except.bind_ok_iff, pure_bind] at hd
  obtain ⟨_, _, _, _, _, _, _, _, _, _, _, _, _, _, a, ha, c, hc, hn⟩ := hd
  obtain ⟨-, h2⟩ := (MetadataHeader.new_iff _ _).1 hn
  subst h2
  have e1 := slice_length b 16 20 (by omega)
  have e2 := slice_length b 20 24 (by omega)
  unfold decodeUInt32 unpackUnsigned at ha hc
  rw [if_pos e1] at ha
  rw [if_pos e2] at hc
  cases ha; cases hc
  exact ⟨rfl, rfl⟩

theorem overshoots_of {x : Bytes} (h : OvershootsAt x) : Spec.Overshoots x := by
  obtain ⟨hd, mh, h1, -, h3, h4, h5⟩ := h
  have hlen : (slice x 32 64).length = 32 := (MetadataHeader.decode_ok h4).2
  have hlen' : 64 ≤ x.length := by
    simp only [slice, List.length_take, List.length_drop] at hlen
    omega
  obtain ⟨-, -, -, h6, -⟩ := C05_header_strict _ _ h1
  obtain ⟨e1, e2⟩ := metaSizes_of h4
  have e3 : slice (slice x 32 64) 16 20 = slice x 48 52 := by
    simp [slice, List.drop_take, List.drop_drop, List.take_take]
  have e4 : slice (slice x 32 64) 20 24 = slice x 52 56 := by
    simp [slice, List.drop_take, List.drop_drop, List.take_take]
  rw [e3] at e1
  rw [e4] at e2
  refine ⟨hlen', ?_, by omega⟩
  have h7 : (x.take 32)[5]? = x[5]? := by rw [List.getElem?_take]; simp
  have h8 : (x.take 32)[5]? = some (Spec.optionsByte hd.offsets hd.metadata) := by
    rw [h6]
    unfold Spec.headerBytes
    simp [Spec.leBytes]
  rw [List.getD_eq_getElem?_getD, ← h7, h8, h3]
  cases hd.offsets <;> decide

/-- C46, unpacking: for any contents (valid or not) the three unpacking functions agree on the result or on the exception. Missing for the
full property: contents whose metadata sizes point to before the beginning of the file (`C46_unpack_violated`). -/
theorem C46_unpack_agree_partial (E : Env μ) (fs : FS) (i o : String) (bytes : Bytes) (hi : fs.files i = some bytes)
    (ho : fs.canWrite o = true) (hio : i ≠ o) (hov : ¬ Spec.Overshoots bytes) :
    unpackBytesFromFile E fs i = unpackBytesFromBytes E bytes ∧
    (∀ data md, unpackBytesFromBytes E bytes = .ok (data, md) ↔
      ∃ fs', unpackFileFromFile E fs i o = (.ok md, fs') ∧ fs'.files o = some data) ∧
    (∀ e, unpackBytesFromBytes E bytes = .error e ↔ ∃ fs', unpackFileFromFile E fs i o = (.error e, fs')) := by
  have h1 : unpackBytesFromFile E fs i = unpackBytesFromBytes E bytes := by
    rw [unpackBytesFromFile_eq E hi]
    unfold unpackBytesFromBytes
    rcases unpackFP_toMemory E bytes with h | ⟨-, h⟩
    · rw [h]
      rcases unpackFrom E bytes with ⟨r, o⟩
      cases r <;> rfl
    · exact absurd (overshoots_of h) hov
  obtain ⟨h2, h3, -⟩ := C46_unpack_files E fs i o bytes hi ho hio
  rw [h1] at h2 h3
  exact ⟨h1, h2, h3⟩

/-- C46: whatever unpacks from a file unpacks to the same from memory -/
theorem C46_unpack_memory (E : Env μ) (fs : FS) (i : String) (bytes : Bytes) (hi : fs.files i = some bytes) (r : Bytes × Option μ)
    (h : unpackBytesFromFile E fs i = .ok r) : unpackBytesFromBytes E bytes = .ok r := by
  rw [unpackBytesFromFile_eq E hi] at h
  unfold unpackBytesFromBytes
  rcases unpackFP_toMemory E bytes with h1 | ⟨h1, -⟩
  · rw [h1]
    generalize unpackFrom E bytes = q at h ⊢
    rcases q with ⟨r, o⟩
    cases r <;> exact h
  · rw [h1] at h; cases h

example : ∃ fs : FS, fs.files "a" = some [1, 2, 3] ∧ fs.canWrite "b" = true ∧ "a" ≠ "b" ∧
    (packFileToFile Toy.env fs "a" "b" (.int 2)).1.toOption.isSome = true :=
  ⟨⟨fun x => if x = "a" then some [1, 2, 3] else none, fun _ => true⟩, by decide +kernel, rfl, by decide, by decide +kernel⟩

end Bloscpack
