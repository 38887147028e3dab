import Verif.Props.Numpy
import Verif.Props.Cli
/-
C59: unpacking something else than an array. C60: what a refused packing does to an existing file. C61: the functions for
arrays in files.
-/
namespace Bloscpack
variable {μ : Type}

/-! ### C59 -/

/-- the metadata of an array: a dict with the entry `'container': 'numpy'`. In a dict with several entries for the same key
(JSON text can have them, but Python dicts cannot) the first one would count. -/
def Spec.NumpyMetadata : Option Json → Prop
  | some (.obj l) => ∃ pre post, l = pre ++ (pyStr "container", .str (pyStr "numpy")) :: post ∧ ∀ e ∈ pre, e.1 ≠ pyStr "container"
  | _ => False

/-- metadata in which looking up `'container'` is possible -/
def Spec.HasContainer : Option Json → Prop
  | some (.obj l) => ∃ e ∈ l, e.1 = pyStr "container"
  | none => True
  | _ => False

theorem lookupKey_cases (key : PyStr) (l : List (PyStr × Json)) :
    (lookupKey key l = .error .keyError ∧ ∀ e ∈ l, e.1 ≠ key) ∨
    ∃ v pre post, lookupKey key l = .ok v ∧ l = pre ++ (key, v) :: post ∧ ∀ e ∈ pre, e.1 ≠ key := by
  induction l with
  | nil => exact .inl ⟨rfl, nofun⟩
  | cons x l ih =>
    obtain ⟨k, v⟩ := x
    by_cases hk : k = key
    · subst hk
      exact .inr ⟨v, [], l, by simp [lookupKey], rfl, nofun⟩
    · rcases ih with ⟨h1, h2⟩ | ⟨w, pre, post, h1, h2, h3⟩
      · refine .inl ⟨by simp [lookupKey, hk, h1], ?_⟩
        simpa [hk] using h2
      · refine .inr ⟨w, (k, v) :: pre, post, by simp [lookupKey, hk, h1], by simp [h2], ?_⟩
        simpa [hk] using h3

/-- the errors of the sink for metadata that is not that of an array -/
theorem plainNumpySink_other (lib : NumpyLib) (md : Option Json) (h : ¬ Spec.NumpyMetadata md) (alloc : Int) (mem : Int → UInt8) :
    (Spec.HasContainer md → plainNumpySink lib md alloc mem = .error .notANumpyArray) ∧
    (¬ Spec.HasContainer md → plainNumpySink lib md alloc mem = .error (match md with | some (.obj _) => .keyError | _ => .typeError)) := by
  cases md with
  | none => exact ⟨fun _ => rfl, fun h => (h trivial).elim⟩
  | some j =>
    cases j with
    | obj l =>
      rcases lookupKey_cases (pyStr "container") l with ⟨h1, h2⟩ | ⟨v, pre, post, h1, h2, h3⟩
      · refine ⟨fun ⟨e, he, hk⟩ => (h2 e he hk).elim, fun _ => ?_⟩
        simp [plainNumpySink, Json.item, h1]
      · refine ⟨fun _ => ?_, fun hn => (hn ⟨(pyStr "container", v), by simp [h2], rfl⟩).elim⟩
        have hv : isNumpy v = false := by
          cases v with
          | str s =>
            by_cases hs : s = pyStr "numpy"
            · subst hs
              exact (h ⟨pre, post, h2, h3⟩).elim
            · simpa [isNumpy] using hs
          | _ => rfl
        simp [plainNumpySink, Json.item, h1, hv]
    | _ => exact ⟨fun hn => hn.elim, fun _ => rfl⟩

theorem unpackNdarray_sink_error (E : Env Json) (lib : NumpyLib) (bytes data : Bytes) (md : Option Json)
    (h : unpackBytesFromBytes E bytes = .ok (data, md)) (alloc : Int) (mem : Int → UInt8) (e : Err)
    (he : plainNumpySink lib md alloc mem = .error e) : unpackNdarrayFromBytes E lib bytes alloc mem = (.error e, mem) := by
  have hu : unpackFP E { data := bytes, inMemory := true } = (.ok md, data) := by
    unfold unpackBytesFromBytes at h
    generalize unpackFP E { data := bytes, inMemory := true } = q at h
    obtain ⟨r, o⟩ := q
    cases r with
    | error e => cases h
    | ok m' => simp only [Except.ok.injEq, Prod.mk.injEq] at h; rw [h.1, h.2]
  rcases unpackNdarray_cases E lib bytes alloc mem with ⟨e, h1, -⟩ | ⟨md', h1, h2⟩
  · rw [hu] at h1; cases h1
  · have := h2 md (by rw [hu])
    subst this
    rcases h1 with ⟨e', h3, h4⟩ | ⟨a, h3, -⟩
    · rw [he] at h3; cases h3; exact h4
    · rw [he] at h3; cases h3

/-- C59: bytes that unpack to data with metadata which is not that of an array are rejected with `NotANumpyArray`, and no memory
is written, if the metadata is missing or a dict with a `'container'` entry. Missing for the full property: other metadata
(`C59_violated`). -/
theorem C59_rejected_partial (E : Env Json) (lib : NumpyLib) (bytes data : Bytes) (md : Option Json)
    (h : unpackBytesFromBytes E bytes = .ok (data, md)) (hmd : ¬ Spec.NumpyMetadata md) (hc : Spec.HasContainer md)
    (alloc : Int) (mem : Int → UInt8) :
    unpackNdarrayFromBytes E lib bytes alloc mem = (.error .notANumpyArray, mem) :=
  unpackNdarray_sink_error E lib bytes data md h alloc mem _ ((plainNumpySink_other lib md hmd alloc mem).1 hc)

/-- C59 is violated: metadata without that entry gives `KeyError`, or `TypeError` if it is not a dict. -/
theorem C59_violated (E : Env Json) (lib : NumpyLib) (bytes data : Bytes) (md : Json)
    (h : unpackBytesFromBytes E bytes = .ok (data, some md)) (hc : ¬ Spec.HasContainer (some md)) (alloc : Int) (mem : Int → UInt8) :
    unpackNdarrayFromBytes E lib bytes alloc mem = (.error (match md with | .obj _ => .keyError | _ => .typeError), mem) := by
  have hmd : ¬ Spec.NumpyMetadata (some md) := by
    intro hn
    apply hc
    cases md with
    | obj l => obtain ⟨pre, post, rfl, -⟩ := hn; exact ⟨(pyStr "container", .str (pyStr "numpy")), by simp, rfl⟩
    | _ => exact hn.elim
  have := (plainNumpySink_other lib (some md) hmd alloc mem).2 hc
  exact unpackNdarray_sink_error E lib bytes data (some md) h alloc mem _ (by rw [this]; cases md <;> rfl)

/-- C59: whatever `pack_ndarray_to_bytes` returns is not rejected as not being an array. -/
theorem C59_arrays_pass (E : Env Json) (L : E.Laws) (lib : NumpyLib) (a : NdArray) (alloc : Int) (cs : ChunkSizeArg) (blosc : BloscArgs)
    (b : BloscpackArgs) (m : MetadataArgs) (out : Bytes) (h : packNdarrayToBytes E lib a alloc cs blosc b m = .ok out) :
    ∃ data md, unpackBytesFromBytes E out = .ok (data, md) ∧ Spec.NumpyMetadata md := by
  obtain ⟨md, hmd, hu⟩ := packNdarray_ok L h
  refine ⟨_, some md, unpackBytes_ok hu, ?_⟩
  unfold ndarrayMeta at hmd
  obtain ⟨d, -, hd⟩ := Except.bind_ok_iff.1 hmd
  cases hd
  refine ⟨[(pyStr "dtype", .str (lib.repr d)), (pyStr "shape", .arr (a.shape.map (fun n : Nat => .int n))),
    (pyStr "order", .str (pyStr (if a.isFortran then "F" else "C")))], [], rfl, ?_⟩
  intro e he
  simp only [List.mem_cons, List.not_mem_nil, or_false] at he
  rcases he with rfl | rfl | rfl <;> simp only <;> decide

-- packed data without metadata, with another container, with a dict without the entry, with a list
example : let f : Option Json → Option Err := fun md =>
      match packBytesToBytes Toy.jsonEnv [1, 2, 3] (.int 2) md {} { max_app_chunks := .int 1 } { max_meta_size := .int 60 } with
      | .error _ => none
      | .ok out =>
        match (unpackNdarrayFromBytes Toy.jsonEnv Toy.numpy out 1000 (fun _ => 0)).1 with
        | .ok _ => none
        | .error e => some e
    [f none, f (some (.obj [(pyStr "container", .str (pyStr "bcolz"))])), f (some (.obj [(pyStr "dtype", .int 1)])), f (some (.arr []))] =
      [some .notANumpyArray, some .notANumpyArray, some .keyError, some .typeError] := by
  decide +kernel

/-! ### C60 -/

/-- settings that no packing function accepts: a checksum that does not exist, or a typesize out of range -/
def Spec.BadSettings (a : BloscArgs) (b : BloscpackArgs) : Prop :=
  b.checksum ∉ Spec.checksumNames ∨ a.typesize < 0 ∨ 255 < a.typesize

theorem pack_bad {σ : Type} (E : Env μ) (src : PlainSource) (sink : CompressedSink μ σ) (n c l : Int) (md : Option μ) (a : BloscArgs)
    (b : BloscpackArgs) (m : MetadataArgs) (hbad : Spec.BadSettings a b) (s : σ) :
    ∃ e, pack E src sink n c l md a b m s = (.error e, s) := by
  unfold pack
  cases hh : packHeader n c l md a b with
  | error e => exact ⟨e, Proc.bind_of_error (Proc.ofExcept_apply _ _)⟩
  | ok h =>
    exfalso
    unfold packHeader at hh
    obtain ⟨_, -, hh⟩ := Except.bind_ok_iff.1 hh
    obtain ⟨⟨-, h1, h2, -⟩, -⟩ := (BloscpackHeader.new_iff _ _).1 hh
    rcases hbad with hb | hb | hb
    · exact hb h1
    · simp only at h2; omega
    · simp only at h2; omega

/-- C60 is violated by the functions for bytes and files: whatever the output file contained, after packing was refused because of
invalid settings it is empty. -/
theorem C60_violated (E : Env μ) (fs : FS) (bytes : Bytes) (in_file out_file : String) (hin : fs.files in_file = some bytes)
    (hw : fs.canWrite out_file = true) (cs : ChunkSizeArg) (hcs : ∃ r, calculateNchunks bytes.length cs = .ok r) (md : Option μ)
    (a : BloscArgs) (b : BloscpackArgs) (m : MetadataArgs) (hbad : Spec.BadSettings a b) :
    (∃ e, (packBytesToFile E fs bytes out_file cs md a b m).1 = .error e) ∧
    (packBytesToFile E fs bytes out_file cs md a b m).2.files out_file = some [] ∧
    (∃ e, (packFileToFile E fs in_file out_file cs md a b m).1 = .error e) ∧
    (packFileToFile E fs in_file out_file cs md a b m).2.files out_file = some [] := by
  obtain ⟨⟨n, c, l⟩, hr⟩ := hcs
  obtain ⟨e, he⟩ := pack_bad E (plainFPSource { data := bytes }) (compressedFPSink E) n c l md a b m hbad { fp := { data := [] } }
  obtain ⟨e', he'⟩ := pack_bad E (plainFPSource { data := (fs.put out_file []).current in_file }) (compressedFPSink E) n c l md a b m
    hbad { fp := { data := [] } }
  have ho : fs.openWrite out_file = .ok (fs.put out_file []) := by simp [FS.openWrite, hw]
  have h1 : packBytesToFile E fs bytes out_file cs md a b m = (.error e, (fs.put out_file []).put out_file []) := by
    unfold packBytesToFile
    simp only [hr, ho, he]
  have h2 : packFileToFile E fs in_file out_file cs md a b m = (.error e', (fs.put out_file []).put out_file []) := by
    unfold packFileToFile
    simp only [FS.getsize, FS.openRead, hin, hr, ho, he']
  rw [h1, h2]
  refine ⟨⟨e, rfl⟩, ?_, ⟨e', rfl⟩, ?_⟩ <;> simp [FS.put]

/-- C60 is violated by `pack_ndarray_to_file`: an array with objects is refused, and the existing file is emptied. -/
theorem C60_ndarray_violated (E : Env Json) (lib : NumpyLib) (fs : FS) (a : NdArray) (ho : Spec.Mentions (pyStr "|O") a.dtype) (alloc : Int)
    (filename : String) (hw : fs.canWrite filename = true) (cs : ChunkSizeArg) (blosc : BloscArgs) (b : BloscpackArgs) (m : MetadataArgs) :
    (packNdarrayToFile E lib fs a alloc filename cs blosc b m).1 = .error .objectNumpyArrayRejection ∧
    (packNdarrayToFile E lib fs a alloc filename cs blosc b m).2.files filename = some [] := by
  have h1 : packNdarray E lib a alloc (compressedFPSink E) cs blosc b m { fp := { data := [] } } =
      (.error .objectNumpyArrayRejection, { fp := { data := [] } }) := by
    unfold packNdarray
    exact Proc.bind_of_error (Proc.raiseIf_pos ((hasObject_iff a.dtype).2 ho) _ _)
  unfold packNdarrayToFile
  rw [FS.openWrite, if_pos hw]
  simp only [h1]
  simp [FS.put]

/-- C60, what does hold: a size that cannot be divided into chunks, a missing input or an output that cannot be opened change no
file; and in all cases no file but the output changes. Missing for the full property: the other refusals. -/
theorem C60_refused_partial (E : Env μ) (fs : FS) (bytes : Bytes) (in_file out_file : String) (cs : ChunkSizeArg) (md : Option μ)
    (a : BloscArgs) (b : BloscpackArgs) (m : MetadataArgs) :
    ((fs.canWrite out_file = false ∨ (∃ e, calculateNchunks bytes.length cs = .error e)) →
      (∃ e, packBytesToFile E fs bytes out_file cs md a b m = (.error e, fs)) ∧
      (fs.files in_file = some bytes → ∃ e, packFileToFile E fs in_file out_file cs md a b m = (.error e, fs))) ∧
    (fs.files in_file = none → ∃ e, packFileToFile E fs in_file out_file cs md a b m = (.error e, fs)) ∧
    ∀ x, x ≠ out_file → (packBytesToFile E fs bytes out_file cs md a b m).2.files x = fs.files x ∧
      (packFileToFile E fs in_file out_file cs md a b m).2.files x = fs.files x := by
  refine ⟨fun h => ⟨?_, fun hin => ?_⟩, fun hin => ?_, fun x hx => ⟨?_, packFileToFile_frame E fs in_file out_file cs md a b m x hx⟩⟩
  · unfold packBytesToFile
    cases hc : calculateNchunks bytes.length cs with
    | error e => exact ⟨e, rfl⟩
    | ok r =>
      rcases h with h | ⟨e, h⟩
      · exact ⟨.osError, by simp [FS.openWrite, h]⟩
      · rw [hc] at h; cases h
  · unfold packFileToFile
    simp only [FS.getsize, FS.openRead, hin]
    cases hc : calculateNchunks bytes.length cs with
    | error e => exact ⟨e, rfl⟩
    | ok r =>
      rcases h with h | ⟨e, h⟩
      · exact ⟨.osError, by simp [FS.openWrite, h]⟩
      · rw [hc] at h; cases h
  · unfold packFileToFile
    simp only [FS.getsize, hin]
    exact ⟨_, rfl⟩
  · have hr : Spec.SameExcept out_file fs fs := fun _ _ => rfl
    suffices h : Spec.SameExcept out_file fs (packBytesToFile E fs bytes out_file cs md a b m).2 from h x hx
    unfold packBytesToFile
    split
    · exact hr
    split
    · exact hr
    rename_i fs1 h1
    have h1 := openWrite_frame h1
    split
    · exact put_frame h1 _
    split <;> exact put_frame h1 _

-- hypotheses: an existing file, packed over with a checksum that does not exist
example : let fs : FS := { files := fun x => if x = "a" then some [7, 7] else none }
    ((packBytesToFile Toy.env fs [1, 2, 3] "a" (.int 2) none {} { checksum := "crc99" }).1.toBool,
      (packBytesToFile Toy.env fs [1, 2, 3] "a" (.int 2) none {} { checksum := "crc99" }).2.files "a") = (false, some []) := by
  decide +kernel
example : Spec.BadSettings {} { checksum := "crc99" } := .inl (by decide)

/-! ### C61 -/

/-- C61: `pack_ndarray_to_file` writes to the file exactly what `pack_ndarray_to_bytes` returns, fails with the same exception, and
changes no other file. -/
theorem C61_pack (E : Env Json) (lib : NumpyLib) (fs : FS) (a : NdArray) (alloc : Int) (filename : String)
    (hw : fs.canWrite filename = true) (cs : ChunkSizeArg) (blosc : BloscArgs) (b : BloscpackArgs) (m : MetadataArgs) :
    (∀ out, packNdarrayToBytes E lib a alloc cs blosc b m = .ok out →
      (∃ r, (packNdarrayToFile E lib fs a alloc filename cs blosc b m).1 = .ok r) ∧
      (packNdarrayToFile E lib fs a alloc filename cs blosc b m).2.files filename = some out) ∧
    (∀ e, packNdarrayToBytes E lib a alloc cs blosc b m = .error e →
      (packNdarrayToFile E lib fs a alloc filename cs blosc b m).1 = .error e) ∧
    ∀ x, x ≠ filename → (packNdarrayToFile E lib fs a alloc filename cs blosc b m).2.files x = fs.files x := by
  unfold packNdarrayToFile packNdarrayToBytes
  rw [FS.openWrite, if_pos hw]
  simp only
  generalize packNdarray E lib a alloc (compressedFPSink E) cs blosc b m { fp := { data := [] } } = r
  obtain ⟨r, s⟩ := r
  refine ⟨fun out h => ?_, fun e h => ?_, fun x hx => ?_⟩
  · cases r with
    | error e => cases h
    | ok r => cases h; exact ⟨⟨r, rfl⟩, by simp [FS.put]⟩
  · cases r with
    | error e' => cases h; rfl
    | ok r => cases h
  · simp [FS.put, hx]

/-- C61: an array packed to a file of any name is unpacked from that file with the same type, shape and elements. -/
theorem C61_roundtrip (E : Env Json) (L : E.Laws) (lib : NumpyLib) (fs fs' : FS) (a : NdArray) (alloc : Int)
    (filename : String) (cs : ChunkSizeArg) (blosc : BloscArgs) (b : BloscpackArgs) (m : MetadataArgs)
    (r : BloscArgs × MetadataArgs) (hs : a.strides.length = a.shape.length) (hg : Spec.GapFree a.dtype) (hk : Spec.Known lib a.dtype)
    (h : packNdarrayToFile E lib fs a alloc filename cs blosc b m = (.ok r, fs')) (alloc' : Int) (mem : Int → UInt8) :
    ∃ u, (unpackNdarrayFromFile E lib fs' filename alloc' mem).1 = .ok u ∧ Spec.SameArray a u := by
  have hw : fs.canWrite filename = true := by
    cases hw : fs.canWrite filename with
    | true => rfl
    | false => unfold packNdarrayToFile at h; rw [FS.openWrite, if_neg (by simp [hw])] at h; cases h
  obtain ⟨h1, h2, -⟩ := C61_pack E lib fs a alloc filename hw cs blosc b m
  cases hb : packNdarrayToBytes E lib a alloc cs blosc b m with
  | error e => have := h2 e hb; rw [h] at this; cases this
  | ok out =>
    obtain ⟨-, h3⟩ := h1 out hb
    rw [h] at h3
    unfold unpackNdarrayFromFile FS.openRead
    simp only at h3
    rw [h3]
    obtain ⟨md, hmd, hu⟩ := packNdarray_ok L hb
    have hr := unpackNdarray_meta_fp E lib a hg hk md hmd { data := out } _ hu alloc' mem
    simp only [hr]
    exact ⟨_, rfl, rfl, rfl, fun idx hi => sourceBuffer_item a alloc alloc' mem hs idx hi⟩

example : let fs : FS := { files := fun _ => none }
    let r := packNdarrayToFile Toy.jsonEnv Toy.numpy fs Toy.view 74 "v" (.int 8) {} { max_app_chunks := .int 1 } { max_meta_size := .int 200 }
    (r.1.toBool, ((unpackNdarrayFromFile Toy.jsonEnv Toy.numpy r.2 "v" 1000 (fun _ => 0)).1.map (fun u => u.item [1, 2])).toOption) =
      (true, some [116, 117, 118, 119]) := by
  decide +kernel

end Bloscpack
