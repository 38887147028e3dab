import Verif.Props.Cli
/-
C65 (failed unpacking and existing output files), C66 (a file as its own output), C67 (what is packed is what was read).
-/
namespace Bloscpack
variable {μ : Type}

/-! ### C67 -/

/-- C67: the packed file holds exactly what was read from the source, chunk by chunk: whatever pieces the reads deliver, of the
announced lengths or not (as when the input file is changed by another program while it is packed), if packing succeeds then
unpacking the result gives these pieces one after the other, and the metadata. -/
theorem C67_holds_what_was_read (E : Env μ) (L : E.Laws) (src : PlainSource) (n c l : Int) (md : Option μ) (a : BloscArgs)
    (b : BloscpackArgs) (m m' : MetadataArgs) (hn : 1 ≤ n) (pieces : List Bytes) (hsrc : src c l n = ⟨pieces, none⟩)
    (hlen : pieces.length = n.toNat) (s : FPSink)
    (h : pack E src (compressedFPSink E) n c l md a b m ({ fp := { data := [] } } : FPSink) = (.ok m', s)) :
    unpackBytesFromBytes E s.fp.data = .ok (pieces.flatten, md) ∧ 32 ≤ s.fp.data.length := by
  have key : ∀ hd, packHeader n c l md a b = .ok hd → ∀ sec chs, SecFor E md m sec m' → offsetsLen hd < 2 ^ 63 → chs.map (·.2) = pieces →
      (∀ p ∈ chs, E.compress p.2 a = .ok p.1) → s.fp.data = (packedFile E hd sec chs).bytes E →
      unpackBytesFromBytes E s.fp.data = .ok (pieces.flatten, md) ∧ 32 ≤ s.fp.data.length := by
    intro hd hh sec chs hs hb hi hc hdata
    obtain ⟨g1, g2, g3, g4, g5, g6, g7, g8, g9, g10⟩ := packHeader_ok hh
    have hcl : (chs.length : Int) = hd.nchunks := by
      rw [g9]
      have := congrArg List.length hi
      simp at this
      omega
    have hv : (packedFile E hd sec chs).Valid E := {
      ok := g1
      version := g2
      meta_flag := by show hd.metadata = sec.isSome; rw [g4, hs.isSome]
      sec_ok := hs.valid
      offsets_len := packedFile_offsets_length hcl g1.2.2.2.2.2.2.1.1
      offsets_small := hb
      nchunks_le := by show (chs.length : Int) ≤ hd.nchunks; omega
      chunks_ok := fun p hp => L.decompress_compress _ _ _ (hc p hp)
      nchunks := hcl.symm }
    refine ⟨?_, ?_⟩
    · rw [hdata, unpackBytes_ok (unpackFrom_file L hv)]
      have h1 : (packedFile E hd sec chs).data = pieces.flatten := by
        show (chs.map (·.2)).flatten = _
        rw [hi]
      simp only [h1, hs.metadata_eq (F := packedFile E hd sec chs) rfl]
    · rw [hdata]
      have h32 : (packedFile E hd sec chs).header.bytes.length = 32 := hd.bytes_length
      unfold File.bytes File.front
      rw [List.length_append, List.length_append, h32]
      omega
  rcases pack_run L src n c l md a b m hn pieces hsrc hlen with ⟨e, -, h1⟩ | ⟨hd, h1, h2⟩
  · rw [h1] at h; cases h
  · rw [h] at h2
    cases h2 with
    | plain sec _ hs hb chs hi hc ho _ hfp =>
      refine key hd h1 sec chs hs hb hi hc ?_
      rw [hfp, wrote_base_data hs.valid, baseFile_eq_packedFile ho]
    | full sec _ hs hb chs hi hc ho raw he _ hdd hl hp => exact key hd h1 sec chs hs hb hi hc hdd

/-- reading on and on from a file that holds less, or more, than was expected -/
theorem readMany_take (sizes : List Nat) (A R : Bytes) (l) :
    ((readMany (sizes.map (fun (k : Nat) => (k : Int))) (Z A R l)).1).flatten = R.take sizes.sum ∧
    ((readMany (sizes.map (fun (k : Nat) => (k : Int))) (Z A R l)).1).length = sizes.length := by
  have hrd : ∀ (A R : Bytes) (n : Nat), (Z A R l).read n = (R.take n, Z (A ++ R.take n) (R.drop n) l) := by
    intro A R n
    have := fpRead_Z A R l n
    simp only [fpRead_eq, Prod.mk.injEq, Except.ok.injEq] at this
    exact Prod.ext this.1 this.2
  induction sizes generalizing A R with
  | nil => simp [readMany]
  | cons k sizes ih =>
    obtain ⟨h1, h2⟩ := ih (A ++ R.take k) (R.drop k)
    simp only [List.map_cons, readMany, hrd, List.flatten_cons, h1, List.sum_cons, List.length_cons, h2, List.take_add,
      and_self]

/-- C67, for a file: if the input was `size` bytes long when packing began, and holds `content` when it is read, the packed file
holds the first `size` bytes of `content`; if there are fewer, no exception tells. -/
theorem C67_input_changed (E : Env μ) (L : E.Laws) (size : Nat) (content : Bytes) (cs : ChunkSizeArg) (n c l : Int) (md : Option μ)
    (a : BloscArgs) (b : BloscpackArgs) (m m' : MetadataArgs) (hc : calculateNchunks size cs = .ok (n, c, l)) (s : FPSink)
    (h : pack E (plainFPSource { data := content }) (compressedFPSink E) n c l md a b m ({ fp := { data := [] } } : FPSink) = (.ok m', s)) :
    unpackBytesFromBytes E s.fp.data = .ok (content.take size, md) ∧ 32 ≤ s.fp.data.length := by
  obtain ⟨h1, h2, -, h4, -, h5, h6⟩ := C02_chunking_covers _ _ _ _ _ hc
  have hcl : 0 ≤ l ∧ 0 ≤ c := by
    by_cases hz : (size : Int) = 0
    · have := h5 hz; omega
    · have := (h6 hz).1; omega
  have e1 : ((n - 1).toNat : Int) = n - 1 := Int.toNat_of_nonneg (by omega)
  have e2 : (c.toNat : Int) = c := Int.toNat_of_nonneg hcl.2
  have e3 : (l.toNat : Int) = l := Int.toNat_of_nonneg hcl.1
  obtain ⟨r1, r2⟩ := readMany_take (List.replicate (n - 1).toNat c.toNat ++ [l.toNat]) [] content []
  have hs : (List.replicate (n - 1).toNat c.toNat ++ [l.toNat]).map (fun (k : Nat) => (k : Int)) =
      List.replicate (n - 1).toNat c ++ [l] := by
    rw [List.map_append, List.map_replicate, List.map_singleton, e2, e3]
  rw [hs] at r1 r2
  have hsum : (List.replicate (n - 1).toNat c.toNat ++ [l.toNat]).sum = size := by
    rw [List.sum_append, List.sum_replicate_nat]
    have : (size : Int) = (((n - 1).toNat * c.toNat + l.toNat : Nat) : Int) := by
      rw [Int.natCast_add, Int.natCast_mul, e1, e2, e3, ← h1, Int.mul_comm]
    rw [List.sum_singleton]
    omega
  rw [hsum] at r1
  have := C67_holds_what_was_read E L (plainFPSource { data := content }) n c l md a b m m' h2 _ rfl
    (by rw [show ({ data := content } : FP) = Z [] content [] from rfl, r2]; simp; omega) s h
  rw [show ({ data := content } : FP) = Z [] content [] from rfl, r1] at this
  exact this

-- the input had five bytes when packing began, three when it was read
example : (match calculateNchunks 5 (.int 2) with
    | .error _ => none
    | .ok (n, c, l) =>
      some (unpackBytesFromBytes Toy.env (pack Toy.env (plainFPSource { data := [7, 8, 9] }) (compressedFPSink Toy.env) n c l none {} {} {}
        ({ fp := { data := [] } } : FPSink)).2.fp.data)) = some (.ok ([7, 8, 9], none)) := by
  decide +kernel

/-! ### C66 -/

/-- C66 is violated by `unpack_file_from_file`: a file given as its own output is emptied, and `ValueError` raised. -/
theorem C66_unpack_violated (E : Env μ) (fs : FS) (f : String) (old : Bytes) (hf : fs.files f = some old)
    (hw : fs.canWrite f = true) :
    (unpackFileFromFile E fs f f).1 = .error .valueError ∧ (unpackFileFromFile E fs f f).2.files f = some [] := by
  have h0 : unpackFrom E [] = (.error .valueError, []) := by
    unfold unpackFrom unpackFP
    have : readBeginning E { data := [] } = (.error .valueError, { data := [] }) := rfl
    rw [this]
  unfold unpackFileFromFile
  simp only [FS.getsize, FS.openRead, FS.openWrite, hf, hw, if_true, current_put_self, h0]
  exact ⟨trivial, by simp [FS.put]⟩

/-- C66 is violated by `pack_file_to_file`: a file given as its own output ends up with contents that depend only on the number of
bytes it had; if no exception is raised, these contents unpack to nothing at all. -/
theorem C66_pack_violated (E : Env μ) (L : E.Laws) (f : String) (cs : ChunkSizeArg) (md : Option μ) (a : BloscArgs)
    (b : BloscpackArgs) (m : MetadataArgs) (old : Bytes) (fs : FS) (hf : fs.files f = some old)
    (hw : fs.canWrite f = true) :
    (∀ m', (packFileToFile E fs f f cs md a b m).1 = .ok m' →
      ∃ out, (packFileToFile E fs f f cs md a b m).2.files f = some out ∧ unpackBytesFromBytes E out = .ok ([], md)) ∧
    ((∃ r, calculateNchunks old.length cs = .ok r) → ∀ (fs2 : FS) (old2 : Bytes), fs2.files f = some old2 → fs2.canWrite f = true →
      old2.length = old.length →
      (packFileToFile E fs f f cs md a b m).1 = (packFileToFile E fs2 f f cs md a b m).1 ∧
      (packFileToFile E fs f f cs md a b m).2.files f = (packFileToFile E fs2 f f cs md a b m).2.files f) := by
  refine ⟨fun m' => ?_, ?_⟩
  · unfold packFileToFile
    simp only [FS.getsize, FS.openRead, FS.openWrite, hf, hw, if_true, current_put_self]
    cases hc : calculateNchunks old.length cs with
    | error e => intro h; cases h
    | ok r =>
      obtain ⟨n, c, l⟩ := r
      simp only
      have hp := C67_input_changed E L old.length [] cs n c l md a b m m' hc
      generalize pack E (plainFPSource { data := [] }) (compressedFPSink E) n c l md a b m ({ fp := { data := [] } } : FPSink) = q at hp ⊢
      obtain ⟨r, s⟩ := q
      cases r with
      | error e => intro h; cases h
      | ok m1 =>
        simp only
        have hfile : ((fs.put f []).put f s.fp.data).files f = some s.fp.data := by simp [FS.put]
        simp only [hfile]
        intro h
        cases hl : s.fp.data.length with
        | zero => rw [hl] at h; cases h
        | succ k =>
          rw [hl] at h
          cases h
          simp only
          refine ⟨_, hfile, ?_⟩
          have := (hp s rfl).1
          rwa [List.take_nil] at this
  · rintro ⟨⟨n, c, l⟩, hr⟩ fs2 old2 hf2 hw2 hlen
    unfold packFileToFile
    simp only [FS.getsize, FS.openRead, FS.openWrite, hf, hw, hf2, hw2, if_true, current_put_self, hlen, hr]
    generalize pack E (plainFPSource { data := [] }) (compressedFPSink E) n c l md a b m ({ fp := { data := [] } } : FPSink) = q
    obtain ⟨r, s⟩ := q
    have hfile : ∀ g : FS, ((g.put f []).put f s.fp.data).files f = some s.fp.data := by intro g; simp [FS.put]
    cases r with
    | error e => simp only [hfile, and_self]
    | ok m1 =>
      simp only [hfile]
      split <;> simp only [hfile, and_self]

/-- C66, what does hold: with different names the input is never changed, by packing or unpacking. Missing for the full property: the
same name (and names that mean the same file). -/
theorem C66_input_kept_partial (E : Env μ) (fs : FS) (i o : String) (hio : i ≠ o) (cs : ChunkSizeArg) (md : Option μ) (a : BloscArgs)
    (b : BloscpackArgs) (m : MetadataArgs) :
    (packFileToFile E fs i o cs md a b m).2.files i = fs.files i ∧ (unpackFileFromFile E fs i o).2.files i = fs.files i :=
  ⟨packFileToFile_frame E fs i o cs md a b m i hio, unpackFileFromFile_frame E fs i o i hio⟩

example : let fs : FS := { files := fun x => if x = "a" then some [7, 8, 9] else none }
    let r := packFileToFile Toy.env fs "a" "a" (.int 2)
    (r.1.toBool, (r.2.files "a").map (unpackBytesFromBytes Toy.env)) = (true, some (.ok ([], none))) := by
  decide +kernel

/-! ### C65 -/

/-- C65 is violated: when unpacking fails, the existing output file is overwritten all the same. What it contains afterwards depends
only on the input; for an input that is no bloscpack file, or one of another format version, it is empty. -/
theorem C65_violated (E : Env μ) (inp out : String) (hio : inp ≠ out) (input : Bytes) :
    ∃ left, (input.length < 32 ∨ input.take 4 ≠ [98, 108, 112, 107] → left = []) ∧
      ∀ (fs : FS) (old : Bytes) (e : Err), fs.files inp = some input → fs.files out = some old → fs.canWrite out = true →
        unpackBytesFromFile E fs inp = .error e →
        (unpackFileFromFile E fs inp out).1 = .error e ∧ (unpackFileFromFile E fs inp out).2.files out = some left := by
  generalize hq : unpackFrom E input = q
  obtain ⟨r, left⟩ := q
  refine ⟨left, ?_, ?_⟩
  · intro hb
    obtain ⟨s, h1⟩ := not_bloscpack_header input hb
    unfold unpackFrom unpackFP readBeginning at hq
    rw [Proc.bind_of_error h1] at hq
    cases hq
    rfl
  · intro fs old e hin ho hw hbad
    rw [unpackBytesFromFile_eq E hin, hq] at hbad
    cases r with
    | ok md => cases hbad
    | error e' =>
      cases hbad
      unfold unpackFileFromFile
      simp only [FS.getsize, FS.openRead, FS.openWrite, hin, hw, if_true, current_put_ne hio hin, hq]
      exact ⟨trivial, by simp [FS.put]⟩

/-- C65 is violated by the command line: `blpk -f decompress X G` with an `X` that is no bloscpack file empties `G`. -/
theorem C65_cli_violated (E : Env μ) (S : Shown μ) (prog : List Char) (args : CliArgs) (fs : FS) (target : String)
    (input : Bytes) (hcmd : Spec.IsDecompress args)
    (htarget : (args.out_file = none ∧ args.in_file = target ++ ".blp" ∧ args.no_check_extension = false) ∨
      (args.out_file = some target ∧ target ≠ "" ∧ Spec.ExtensionFine args))
    (hin : fs.files args.in_file = some input) (hne : args.in_file ≠ target) (hw : fs.canWrite target = true)
    (old : Bytes) (hold : fs.files target = some old) (hforce : args.force = true)
    (hbad : input.length < 32 ∨ input.take 4 ≠ [98, 108, 112, 107]) :
    (∃ e, (blpk E S prog args fs).1 = .error e) ∧ (blpk E S prog args fs).2.fs.files target = some [] := by
  have ht : ∀ s, decompressionOut args s = (.ok target, s) := by
    intro s
    rcases htarget with ⟨h1, h2, h3⟩ | ⟨h1, h2, h3⟩
    · exact (decompressionOut_eq args s).1 _ h2 h1 h3
    · exact (decompressionOut_eq args s).2 _ h1 h2 h3
  obtain ⟨fs', h1, h2⟩ := (C45_not_bloscpack E input hbad).2 fs args.in_file target hne hin hw
  rw [blpk_result, blpk_fs, cliMain_decompress E S hcmd]
  have hfs : (startWorld prog args fs).fs = fs := rfl
  rcases cliDecompress_cases E S args (startWorld prog args fs) target (ht _) with ⟨msg, h, -⟩ | ⟨-, h⟩
  · exfalso
    have : checkFiles (startWorld prog args fs).fs args.in_file target args.force = none := by
      rw [checkFiles_none_iff]
      show fs.exists _ = true ∧ (fs.exists _ = true → _)
      unfold FS.exists
      rw [hin]
      exact ⟨rfl, fun _ => hforce⟩
    rw [this] at h
    cases h
  · rw [h, decompressHandler_fs, hfs, h1]
    refine ⟨?_, h2⟩
    exact ⟨_, rfl⟩

/-- C65, what does hold: a missing input, or an output that cannot be opened, changes no file; and no file but the output is changed
in any case. Missing for the full property: inputs that cannot be unpacked. -/
theorem C65_refused_partial (E : Env μ) (fs : FS) (inp out : String) :
    ((fs.files inp = none ∨ fs.canWrite out = false) → unpackFileFromFile E fs inp out = (.error .osError, fs)) ∧
    ∀ x, x ≠ out → (unpackFileFromFile E fs inp out).2.files x = fs.files x := by
  refine ⟨fun h => ?_, unpackFileFromFile_frame E fs inp out⟩
  unfold unpackFileFromFile FS.getsize FS.openRead FS.openWrite
  cases hi : fs.files inp with
  | none => rfl
  | some d =>
    rcases h with h | h
    · rw [hi] at h; cases h
    · simp [h]

example : let fs : FS := { files := fun x => if x = "a.blp" then some [7, 8, 9] else if x = "a" then some [1, 2] else none }
    let r := blpk Toy.env CliExample.shown "blpk".toList { CliExample.dArgs with force := true, in_file := "a.blp", out_file := none } fs
    (r.1.toBool, r.2.fs.files "a") = (false, some []) := by
  decide +kernel

end Bloscpack
