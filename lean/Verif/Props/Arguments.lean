import Verif.Props.RoundTrip
import Verif.Props.Numpy
import Verif.Lemmas.Append
import Verif.Lemmas.Locate
/-
C40: what API calls do to the argument objects of the caller.
-/
namespace Bloscpack
variable {μ : Type}

/-! ### metadata args -/

/-- C40, packing: the metadata args are left alone, or compressing the metadata made it longer; then exactly the codec is
changed, to `"None"`. Missing for the full property: the latter case. -/
theorem C40_pack_partial (E : Env μ) (L : E.Laws) (data : Bytes) (cs : ChunkSizeArg) (md : Option μ) (a : BloscArgs) (b : BloscpackArgs)
    (m m' : MetadataArgs) (out : Option FP) (h : packBytes E data cs md a b m = (.ok m', out)) :
    m' = m ∨ (m' = { m with meta_codec := "None" } ∧ ∃ s c, E.dumps md = .ok s ∧ E.zcompress (encodeUtf8 s) m.meta_level = .ok c ∧
      (encodeUtf8 s).length < c.length) := by
  obtain ⟨fp, F, n, c, l, -, -, -, -, -, -, hs, -⟩ := packBytes_ok L h
  rcases hs with ⟨-, -, h1⟩ | ⟨S, s, -, -, hp, -, rfl⟩
  · exact .inl h1
  · rw [hp.args_eq]
    obtain ⟨t, r1, -, -, r4, r5, -⟩ := hp.raw
    rcases r4 with ⟨r4, -⟩ | ⟨r4, r6, -⟩
    · rcases r5 r4 with r5 | ⟨c, r5, r6⟩
      · left; rw [r4, ← r5]
      · right; exact ⟨by rw [r4], t, c, r1, r5, r6⟩
    · left; rw [r4, ← r6]

/-- C40 is violated by packing: whenever compressing the metadata would make it longer, the caller's metadata args have lost
their codec afterwards. -/
theorem C40_pack_violated (E : Env μ) (L : E.Laws) (data : Bytes) (cs : ChunkSizeArg) (md : μ) (a : BloscArgs) (b : BloscpackArgs)
    (m m' : MetadataArgs) (out : Option FP) (h : packBytes E data cs (some md) a b m = (.ok m', out)) (hz : m.meta_codec = "zlib")
    (s : List Char) (hs : E.dumps (some md) = .ok s) (c : Bytes) (hc : E.zcompress (encodeUtf8 s) m.meta_level = .ok c)
    (hlt : (encodeUtf8 s).length < c.length) : m' ≠ m ∧ m'.meta_codec = "None" := by
  have key : m'.meta_codec = "None" := by
    obtain ⟨fp, F, n, c', l, -, -, -, -, -, -, hsec, -⟩ := packBytes_ok L h
    rcases hsec with ⟨h1, -⟩ | ⟨S, sec, -, -, hp, -, rfl⟩
    · cases h1
    · rw [hp.args_eq]
      obtain ⟨t, r1, -, r3, r4, -⟩ := hp.raw
      rcases r4 with ⟨r4, -⟩ | ⟨-, -, r6⟩
      · exact r4
      · rw [hs] at r1; cases r1
        rw [hc] at r6; cases r6
        omega
  refine ⟨?_, key⟩
  rintro rfl
  rw [hz] at key
  exact absurd key (by decide)

/-- ... and so everything packed later with the same object has its metadata stored uncompressed, whatever the metadata. -/
theorem C40_pack_history (E : Env μ) (L : E.Laws) (data : Bytes) (cs : ChunkSizeArg) (md : μ) (a : BloscArgs) (b : BloscpackArgs)
    (m m' : MetadataArgs) (out : FP) (hm : m.meta_codec = "None") (h : packBytes E data cs (some md) a b m = (.ok m', some out)) :
    m' = m ∧ ∃ h mh os fp, readBeginning E { data := out.data } = (.ok (h, some md, some mh, os), fp) ∧ mh.meta_codec = "None" := by
  obtain ⟨fp, F, n, c', l, h1, h2, h3, -, -, h4, hsec, -⟩ := packBytes_ok L h
  cases h1
  rcases hsec with ⟨h1, -⟩ | ⟨S, sec, -, -, hp, hsec, rfl⟩
  · cases h1
  · have hnone : sec.header.meta_codec = "None" := by
      obtain ⟨t, -, -, -, r4, -⟩ := hp.raw
      rcases r4 with ⟨r4, -⟩ | ⟨-, r6, -⟩
      · exact r4
      · rw [hm] at r6; exact absurd r6 (by decide)
    refine ⟨by rw [hp.args_eq, hnone, ← hm], ?_⟩
    obtain ⟨os, q, -⟩ := readBeginning_file L h3.toPre (F.body E ++ F.junk) []
    rw [h4, hsec] at q
    rw [h2, File.bytes]
    exact ⟨_, _, _, _, q, hnone⟩

-- compressing `[1` makes it longer; the same object then stores `[1111111` uncompressed, which a fresh one does not
example :
    let m : MetadataArgs := { max_meta_size := .int 12 }
    let b : BloscpackArgs := { max_app_chunks := .int 1 }
    let r := packBytes Toy.env [1, 2, 3] (.int 2) (some 1) {} b m
    let codec := fun (m : MetadataArgs) => (packBytesToBytes Toy.env [1, 2, 3] (.int 2) (some 7) {} b m).toOption.bind fun out =>
      (readBeginning Toy.env { data := out }).1.toOption.bind fun x => x.2.2.1.map (·.meta_codec)
    r.1.toOption.map (·.meta_codec) = some "None" ∧ r.1.toOption.bind codec = some "None" ∧ codec m = some "zlib" := by
  decide +kernel

/-! ### blosc args -/

/-- C40, `pack_ndarray`: the metadata args are left as by packing the array's buffer; of the blosc args nothing but the typesize
changes, and it becomes the item size. So the property is violated exactly for a typesize that is not the item size. -/
theorem C40_ndarray_violated {σ : Type} (E : Env Json) (lib : NumpyLib) (a : NdArray) (alloc : Int) (sink : CompressedSink Json σ) (cs : ChunkSizeArg)
    (blosc blosc' : BloscArgs) (b : BloscpackArgs) (m m' : MetadataArgs) (s s' : σ)
    (h : packNdarray E lib a alloc sink cs blosc b m s = (.ok (blosc', m'), s')) :
    blosc' = { blosc with typesize := a.itemsize } ∧ (blosc' = blosc ↔ blosc.typesize = a.itemsize) := by
  unfold packNdarray at h
  rw [Proc.bind_ok_iff] at h
  obtain ⟨_, _, -, h⟩ := h
  rw [Proc.bind_ok_iff] at h
  obtain ⟨_, _, -, h⟩ := h
  rw [Proc.bind_ok_iff] at h
  obtain ⟨_, _, -, h⟩ := h
  rw [Proc.bind_ok_iff] at h
  obtain ⟨_, _, -, h⟩ := h
  cases h
  refine ⟨rfl, ?_⟩
  cases blosc
  simp only [BloscArgs.mk.injEq, and_true]
  exact eq_comm

example : (packNdarray Toy.jsonEnv Toy.numpy Toy.view 300 (compressedFPSink Toy.jsonEnv) (.int 8) {} { max_app_chunks := .int 1 }
    { meta_codec := "None", max_meta_size := .int 74 } { fp := { data := [] } }).1.toOption.map (·.1.typesize) = some 4 ∧ ({} : BloscArgs).typesize ≠ 4 := by
  decide +kernel

/-- C40, `append_fp`: values that were given stay. Missing for the full property: the values that were not. -/
theorem C40_append_partial (E : Env μ) (x : AppendArgs) (orig : FP) :
    (∀ v, x.typesize = some v → (x.after E orig).typesize = some v) ∧ (∀ v, x.clevel = some v → (x.after E orig).clevel = some v) ∧
    (∀ v, x.shuffle = some v → (x.after E orig).shuffle = some v) ∧ (∀ v, x.cname = some v → (x.after E orig).cname = some v) := by
  unfold AppendArgs.after
  repeat' split
  all_goals refine ⟨?_, ?_, ?_, ?_⟩ <;> intro v hv <;> simp [hv]

/-- C40, `append_fp`, exactly: an object used for an append to a conforming file holds afterwards what it held before if the file has no offsets,
and otherwise the typesize of the file, level 7, shuffle 1 and codec `blosclz` where nothing was given. -/
theorem C40_append_exact_partial (E : Env μ) (L : E.Laws) (F : File μ) (hc : F.Conforming E) (x : AppendArgs) :
    x.after E { data := F.bytes E } = if F.header.offsets then
      { typesize := some (x.typesize.getD F.header.typesize), clevel := some (x.clevel.getD 7), shuffle := some (x.shuffle.getD 1),
        cname := some (x.cname.getD "blosclz") }
    else x := by
  obtain ⟨os, q, q1, q2⟩ := readBeginning_file L hc.toPre (F.body E ++ F.junk) []
  have q : readBeginning E { data := F.bytes E } = _ := q
  have hF := (File.lookup hc.toPre).1
  have ht : F.header.typesize ≠ -1 := by have := hc.ok.2.2.1.1; omega
  unfold AppendArgs.after
  rw [q]
  simp only
  rw [hF]
  cases ho : F.header.offsets with
  | false => simp [q2 ho]
  | true =>
    have h3 := q1 ho
    rw [hc.decode_table ho] at h3
    cases h3
    have hos : Spec.positions (F.impl E).function (F.front E).length (F.chunks.map (·.1)) ≠ [] := by
      intro h4
      have h5 := congrArg List.length h4
      rw [positions_length, List.length_map, ← Int.natCast_inj, ← hc.nchunks] at h5
      have := hc.n_pos
      simp at h5
      omega
    simp [hos, ht]

/-- C40, `append_fp`: an append that is refused because the file does not begin with a header, or its metadata or offsets cannot be read,
leaves the object alone. -/
theorem C40_append_refused (E : Env μ) (orig : FP) (x : AppendArgs) (e : Err) (h : (readBeginning E orig).1 = .error e) :
    x.after E orig = x ∧ ∀ new n, (appendFp E new n x orig).1 = .error e := by
  generalize hq : readBeginning E orig = q at h
  obtain ⟨r, fp⟩ := q
  cases h
  refine ⟨?_, fun new n => ?_⟩
  · unfold AppendArgs.after
    rw [hq]
  · unfold appendFp appendFrom
    rw [Proc.bind_of_error hq]

/-- C40 is violated by `append_fp`: appending to a packed file with an object that leaves the typesize open puts the typesize of
this file into the object; a later append to whatever other file then uses it instead of that file's own. -/
theorem C40_append_violated (E : Env μ) (L : E.Laws) (data : Bytes) (cs : ChunkSizeArg) (md : Option μ) (a : BloscArgs) (b : BloscpackArgs)
    (m : MetadataArgs) (out : Bytes) (hb : b.offsets = true) (h : packBytesToBytes E data cs md a b m = .ok out) (x : AppendArgs)
    (hx : x.typesize = none) :
    (x.after E { data := out }).typesize = some a.typesize ∧ x.after E { data := out } ≠ x ∧
    ∀ other : BloscpackHeader, other.OK → (∃ y, (x.after E { data := out }).fill other = .ok y ∧ y.typesize = a.typesize) ∧
      ∃ y, x.fill other = .ok y ∧ y.typesize = other.typesize := by
  have key : (x.after E { data := out }).typesize = some a.typesize := by
    obtain ⟨F, n, c, l, m', rfl, h1, -, -, -, -, -, h2, -⟩ := packBytesToBytes_ok L h
    obtain ⟨k1, -, k3, -, -, k6, -⟩ := packHeader_ok h2
    obtain ⟨os, q, q1, -⟩ := readBeginning_file L h1.toPre (F.body E ++ F.junk) []
    have q : readBeginning E { data := F.bytes E } = _ := q
    have hF := (File.lookup h1.toPre).1
    have ht : F.header.typesize ≠ -1 := by have := k1.2.2.1.1; omega
    have hos : os ≠ [] := by
      have h3 := q1 (by rw [k3, hb])
      rw [h1.decode_table (by rw [k3, hb])] at h3
      cases h3
      intro h4
      have h5 := congrArg List.length h4
      rw [positions_length, List.length_map, ← Int.natCast_inj, ← h1.nchunks] at h5
      have := h1.n_pos
      simp at h5
      omega
    unfold AppendArgs.after
    rw [q]
    simp only
    rw [hF]
    rw [k6] at ht
    simp [hos, ht, hx, k6]
  refine ⟨key, ?_, ?_⟩
  · intro he
    rw [he, hx] at key
    cases key
  · intro other ho
    refine ⟨⟨_, AppendArgs.fill_ok _ ho, ?_⟩, ⟨_, AppendArgs.fill_ok _ ho, ?_⟩⟩
    · simp [AppendArgs.filled, key]
    · simp [AppendArgs.filled, hx]

-- a file of typesize 4, then one of typesize 1
example : (do
    let out ← packBytesToBytes Toy.env [1, 2, 3, 4, 5, 6, 7, 8] (.int 4) (none : Option Nat) { typesize := 4 } { max_app_chunks := .int 1 } {}
    return (({ clevel := some 3 } : AppendArgs).after Toy.env { data := out })).toOption =
      some { typesize := some 4, clevel := some 3, shuffle := some 1, cname := some "blosclz" } := by
  decide +kernel

end Bloscpack
