import Verif.Lemmas.Writer
/-
What packing writes, whatever its outcome.
-/
namespace Bloscpack
variable {μ : Type}

/-! ### reading the input -/

theorem readMany_chunks (c last : Nat) (k : Nat) (A R : Bytes) (l) (hR : R.length = k * c + last) :
    ∃ init tl s', readMany (List.replicate k (c : Int) ++ [(last : Int)]) (Z A R l) = (init ++ [tl], s') ∧ init.length = k ∧
      (∀ b ∈ init, b.length = c) ∧ tl.length = last ∧ (init ++ [tl]).flatten = R := by
  have hrd : ∀ (A R : Bytes) (n : Nat), (Z A R l).read n = (R.take n, Z (A ++ R.take n) (R.drop n) l) := by
    intro A R n
    have := fpRead_Z A R l n
    simp only [fpRead_eq, Prod.mk.injEq, Except.ok.injEq] at this
    exact Prod.ext this.1 this.2
  induction k generalizing A R with
  | zero =>
    refine ⟨[], R, Z (A ++ R) [] l, ?_, rfl, by simp, by omega, by simp⟩
    have h1 : R.take last = R := List.take_of_length_le (by omega)
    have h2 : R.drop last = [] := List.drop_of_length_le (by omega)
    simp [readMany, hrd, h1, h2]
  | succ k ih =>
    have hc : c ≤ R.length := by rw [hR, Nat.succ_mul]; omega
    obtain ⟨init, tl, s', h1, h2, h3, h4, h5⟩ := ih (A ++ R.take c) (R.drop c) (by rw [List.length_drop, hR, Nat.succ_mul]; omega)
    refine ⟨R.take c :: init, tl, s', ?_, by simp [h2], ?_, h4, ?_⟩
    · simp [List.replicate_succ, readMany, hrd, h1]
    · intro b hb
      rcases List.mem_cons.1 hb with rfl | hb
      · simp; omega
      · exact h3 b hb
    · rw [List.cons_append, List.flatten_cons, h5, List.take_append_drop]

/-! ### the stages of `pack` -/

/-- the metadata section of a packing run, and the metadata args it leaves behind -/
def SecFor (E : Env μ) (md : Option μ) (m : MetadataArgs) (sec : Option (Section μ)) (m' : MetadataArgs) : Prop :=
  (md = none ∧ sec = none ∧ m' = m) ∨
  (∃ S s, md.isSome ∧ prepareMetadata E md m = .ok S ∧ Prepared E md m S s ∧ sec = some s ∧ m' = S.args)

def optSecWrites (E : Env μ) (sec : Option (Section μ)) : List Bytes :=
  match sec with
  | none => []
  | some s => secWrites E s

def optSecBytes (E : Env μ) (sec : Option (Section μ)) : Bytes :=
  match sec with
  | none => []
  | some s => s.bytes E

/-- the placeholder offsets section -/
def placeholder (h : BloscpackHeader) : Bytes :=
  if h.offsets then Spec.int64s (List.replicate (h.nchunks + h.max_app_chunks).toNat (-1)) else []

def frontWrites (E : Env μ) (h : BloscpackHeader) (sec : Option (Section μ)) : List Bytes :=
  [h.bytes] ++ (optSecWrites E sec ++ (if h.offsets then [placeholder h] else []))

/-- the file before its offsets are filled in -/
def baseFile (h : BloscpackHeader) (sec : Option (Section μ)) (chs : List (Bytes × Bytes)) : File μ :=
  { header := h, sec := sec, offsets := placeholder h, chunks := chs, junk := [] }

/-- the finished file -/
def packedFile (E : Env μ) (h : BloscpackHeader) (sec : Option (Section μ)) (chs : List (Bytes × Bytes)) : File μ :=
  let B := baseFile h sec chs
  { B with offsets := if h.offsets then
      Spec.int64s (Spec.positions (B.impl E).function (B.front E).length (chs.map (·.1)) ++
        List.replicate h.max_app_chunks.toNat (-1)) else [] }

theorem SecFor.valid {E : Env μ} {md m} {sec : Option (Section μ)} {m'} (hs : SecFor E md m sec m') :
    ∀ s, sec = some s → s.Valid E := by
  rintro s rfl
  rcases hs with ⟨-, h, -⟩ | ⟨S, s', -, -, h1, h2, -⟩
  · cases h
  · cases h2; exact h1.valid

theorem SecFor.isSome {E : Env μ} {md m} {sec : Option (Section μ)} {m'} (hs : SecFor E md m sec m') :
    md.isSome = sec.isSome := by
  rcases hs with ⟨h1, h, -⟩ | ⟨S, s', h1, -, -, h2, -⟩
  · rw [h1, h]; rfl
  · rw [h2, h1]; rfl

theorem optSecWrites_flatten {E : Env μ} {sec : Option (Section μ)} (hs : ∀ s, sec = some s → s.Valid E) :
    (optSecWrites E sec).flatten = optSecBytes E sec := by
  cases sec with
  | none => rfl
  | some s => exact secWrites_flatten (hs s rfl)

theorem frontWrites_flatten {E : Env μ} {h : BloscpackHeader} {sec : Option (Section μ)} (hs : ∀ s, sec = some s → s.Valid E)
    (chs : List (Bytes × Bytes)) : (frontWrites E h sec).flatten = (baseFile h sec chs).front E := by
  unfold frontWrites File.front baseFile File.secBytes
  rw [List.flatten_append, List.flatten_append, optSecWrites_flatten hs]
  have : (if h.offsets = true then [placeholder h] else []).flatten = placeholder h := by
    cases ho : h.offsets <;> simp [placeholder, ho]
  rw [this]
  cases sec <;> simp [optSecBytes]

theorem packHeader_ok {n c l : Int} {md : Option μ} {a : BloscArgs} {b : BloscpackArgs} {h : BloscpackHeader}
    (hh : packHeader n c l md a b = .ok h) :
    h.OK ∧ h.format_version = 3 ∧ h.offsets = b.offsets ∧ h.metadata = md.isSome ∧ h.checksum = b.checksum ∧
    h.typesize = a.typesize ∧ h.chunk_size = c ∧ h.last_chunk = l ∧ h.nchunks = n ∧
    handleMaxApps b.offsets n b.max_app_chunks = .ok h.max_app_chunks := by
  unfold packHeader at hh
  rw [Except.bind_ok_iff] at hh
  obtain ⟨mx, h1, h2⟩ := hh
  obtain ⟨h3, rfl⟩ := (BloscpackHeader.new_iff _ _).1 h2
  exact ⟨h3, rfl, rfl, rfl, rfl, rfl, rfl, rfl, rfl, h1⟩

theorem onFP_of {α : Type} {p : Proc FP α} {s : FPSink} {r : Except Err α} {fp' : FP} (h : p s.fp = (r, fp')) :
    FPSink.onFP p s = (r, { s with fp := fp' }) := by
  unfold FPSink.onFP; rw [h]

theorem initOffsets_wrote {s : FPSink} {A R l bss} (hfp : s.fp = wrote A R l bss) (hn : 0 ≤ s.header.nchunks)
    (hb : offsetsLen s.header < 2 ^ 63) :
    FPSink.initOffsets s = (.ok (), { s with
      fp := wrote A R l (bss ++ if s.header.offsets then [placeholder s.header] else [])
      offset_storage := if s.header.offsets then List.replicate s.header.nchunks.toNat (-1) else s.offset_storage }) := by
  unfold FPSink.initOffsets
  rw [Proc.bind_of_ok (Proc.get_apply s)]
  cases ho : s.header.offsets with
  | false => cases s; simp at hfp ho; simp [hfp]
  | true =>
    have ht : s.header.totalProspectiveChunks = some (s.header.nchunks + s.header.max_app_chunks) := if_pos hn
    have h1 : encodeInt64 (-1) = .ok (Spec.leBytes 8 (-1)) := by decide +kernel
    have hb' : ¬ (8 * (s.header.nchunks + s.header.max_app_chunks) ≥ 2 ^ 63) := by
      unfold offsetsLen at hb
      rw [ho, if_pos rfl] at hb
      omega
    simp only [if_true, ht]
    rw [Proc.bind_of_ok (Proc.modify_apply _ s), Proc.bind_of_ok (Proc.ofExcept_apply _ _ |>.trans (by rw [h1])),
      Proc.bind_of_ok (Proc.raiseIf_neg hb' _ _)]
    have h2 : repeatList (Spec.leBytes 8 (-1)) (s.header.nchunks + s.header.max_app_chunks) = placeholder s.header := by
      rw [placeholder, ho, if_pos rfl, int64s_replicate]; rfl
    rw [onFP_of (fp' := wrote A R l (bss ++ [placeholder s.header])) (r := .ok ())
      (by rw [h2]; show fpWrite _ s.fp = _; rw [hfp, fpWrite_wrote])]
    rw [repeatList_single]

/-- no byte string is as long as the offsets would be -/
theorem initOffsets_overflow {s : FPSink} (hn : 0 ≤ s.header.nchunks) (hb : 2 ^ 63 ≤ offsetsLen s.header) :
    ∃ st, FPSink.initOffsets s = (.error .overflowError, { s with offset_storage := st }) := by
  unfold offsetsLen at hb
  cases ho : s.header.offsets with
  | false => rw [ho] at hb; simp at hb
  | true =>
    rw [ho, if_pos rfl] at hb
    have ht : s.header.totalProspectiveChunks = some (s.header.nchunks + s.header.max_app_chunks) := if_pos hn
    have h1 : encodeInt64 (-1) = .ok (Spec.leBytes 8 (-1)) := by decide +kernel
    refine ⟨repeatList [-1] s.header.nchunks, ?_⟩
    unfold FPSink.initOffsets
    rw [Proc.bind_of_ok (Proc.get_apply s)]
    simp only [ho, if_true, ht]
    rw [Proc.bind_of_ok (Proc.modify_apply _ s), Proc.bind_of_ok (Proc.ofExcept_apply _ _ |>.trans (by rw [h1])),
      Proc.bind_of_error (Proc.raiseIf_pos (by omega) _ _)]

theorem writeMeta_sink {E : Env μ} (L : E.Laws) {md : Option μ} {args : MetadataArgs} {S : MetaSection}
    {sec : Section μ} (hS : prepareMetadata E md args = .ok S) (hp : Prepared E md args S sec)
    {s : FPSink} {A R l bss} (hfp : s.fp = wrote A R l bss) :
    (compressedFPSink E).writeMetadata md args s = (.ok S.args,
      { s with fp := wrote A R l (bss ++ secWrites E sec), meta_total := s.meta_total + (sec.bytes E).length }) := by
  show (FPSink.onFP (writeMetadata E md args) >>= _) s = _
  rw [Proc.bind_of_ok (onFP_of (by rw [hfp]; exact writeMetadata_wrote L hS hp A R l bss))]
  rfl

theorem writeMeta_sink_error {E : Env μ} {md : Option μ} {args : MetadataArgs} {e : Err}
    (hS : prepareMetadata E md args = .error e) (s : FPSink) :
    (compressedFPSink E).writeMetadata md args s = (.error e, s) := by
  have h1 : writeMetadata E md args s.fp = (.error e, s.fp) := by
    unfold writeMetadata
    rw [Proc.bind_of_error (Proc.ofExcept_apply _ _ |>.trans (by rw [hS]))]
  show (FPSink.onFP (writeMetadata E md args) >>= _) s = _
  rw [Proc.bind_of_error (onFP_of h1)]

/-- the outcomes of `finalize` -/
theorem finalize_wrote {s : FPSink} (ho : s.header.offsets = true) (P Q : Bytes) (l : List (Nat × Bytes))
    (hd : s.fp.data = P ++ Q) (hlog : s.fp.log = l) (hm : s.fp.inMemory = false) (hpos : P.length = 32 + s.meta_total) :
    (∃ raw, encodeOffsets s.offset_storage = .ok raw ∧
      FPSink.finalize s = (.ok (), { s with fp := Z (P ++ raw) (Q.drop raw.length) (l ++ [(P.length, raw)]) })) ∨
    (∃ e, encodeOffsets s.offset_storage = .error e ∧ FPSink.finalize s = (.error e, { s with fp := Z P Q l })) := by
  unfold FPSink.finalize
  rw [Proc.bind_of_ok (Proc.get_apply s), if_pos ho]
  have h1 : fpSeek (BLOSCPACK_HEADER_LENGTH + s.meta_total) s.fp = (.ok (), Z P Q l) := by
    have h32 : (BLOSCPACK_HEADER_LENGTH : Int) = 32 := rfl
    have : ¬ ((BLOSCPACK_HEADER_LENGTH : Int) + s.meta_total < 0) := by omega
    simp only [fpSeek_eq]; unfold FP.seek
    rw [if_neg this]
    have h2 : ((BLOSCPACK_HEADER_LENGTH : Int) + s.meta_total).toNat = P.length := by omega
    simp only [Z, h2]
    rw [← hd, ← hlog, ← hm]
  rw [Proc.bind_of_ok (onFP_of h1)]
  cases he : encodeOffsets s.offset_storage with
  | error e =>
    refine .inr ⟨e, rfl, ?_⟩
    refine (onFP_of (s := { s with fp := Z P Q l }) (fp' := Z P Q l) (r := .error e) ?_)
    unfold writeOffsets
    rw [Proc.bind_of_error (Proc.ofExcept_apply _ _ |>.trans (by rw [he]))]
  | ok raw =>
    refine .inl ⟨raw, rfl, ?_⟩
    refine (onFP_of (s := { s with fp := Z P Q l }) (r := .ok ()) ?_)
    unfold writeOffsets
    rw [Proc.bind_of_ok (Proc.ofExcept_apply _ _ |>.trans (by rw [he])), fpWrite_Z]

/-- what a packing run did -/
inductive PackRun (E : Env μ) (md : Option μ) (a : BloscArgs) (m : MetadataArgs) (items : List Bytes) (h : BloscpackHeader) :
    Except Err MetadataArgs → FP → Prop
  /-- the metadata could not be written -/
  | metadata (e : Err) (fp : FP) (hm : md.isSome) (he : prepareMetadata E md m = .error e)
      (hfp : fp = wrote [] [] [] [h.bytes]) : PackRun E md a m items h (.error e) fp
  /-- the space for the offsets is larger than any byte string -/
  | space (sec m') (hs : SecFor E md m sec m') (hb : 2 ^ 63 ≤ offsetsLen h) (fp : FP)
      (hfp : fp = wrote [] [] [] ([h.bytes] ++ optSecWrites E sec)) : PackRun E md a m items h (.error .overflowError) fp
  /-- compression of a chunk failed -/
  | chunk (sec m') (hs : SecFor E md m sec m') (hb : offsetsLen h < 2 ^ 63) (chs : List (Bytes × Bytes)) (d : Bytes) (rest : List Bytes) (e : Err)
      (hi : chs.map (·.2) ++ d :: rest = items) (hc : ∀ p ∈ chs, E.compress p.2 a = .ok p.1) (he : E.compress d a = .error e)
      (fp : FP) (hfp : fp = wrote [] [] [] (frontWrites E h sec ++ chunksWrites ((baseFile h sec chs).impl E) (chs.map (·.1)))) :
      PackRun E md a m items h (.error e) fp
  /-- an offset does not fit its field -/
  | offset (sec m') (hs : SecFor E md m sec m') (hb : offsetsLen h < 2 ^ 63) (chs : List (Bytes × Bytes)) (e : Err) (hi : chs.map (·.2) = items)
      (hc : ∀ p ∈ chs, E.compress p.2 a = .ok p.1) (ho : h.offsets = true)
      (he : encodeOffsets (Spec.positions ((baseFile h sec chs).impl E).function ((baseFile h sec chs).front E).length (chs.map (·.1))) =
        .error e)
      (fp : FP) (hd : fp.data = (baseFile h sec chs).bytes E)
      (hl : fp.log = seqLog 0 (frontWrites E h sec ++ chunksWrites ((baseFile h sec chs).impl E) (chs.map (·.1)))) :
      PackRun E md a m items h (.error e) fp
  /-- success, no offsets -/
  | plain (sec m') (hs : SecFor E md m sec m') (hb : offsetsLen h < 2 ^ 63) (chs : List (Bytes × Bytes)) (hi : chs.map (·.2) = items)
      (hc : ∀ p ∈ chs, E.compress p.2 a = .ok p.1) (ho : h.offsets = false)
      (fp : FP) (hfp : fp = wrote [] [] [] (frontWrites E h sec ++ chunksWrites ((baseFile h sec chs).impl E) (chs.map (·.1)))) :
      PackRun E md a m items h (.ok m') fp
  /-- success with offsets -/
  | full (sec m') (hs : SecFor E md m sec m') (hb : offsetsLen h < 2 ^ 63) (chs : List (Bytes × Bytes)) (hi : chs.map (·.2) = items)
      (hc : ∀ p ∈ chs, E.compress p.2 a = .ok p.1) (ho : h.offsets = true) (raw : Bytes)
      (he : encodeOffsets (Spec.positions ((baseFile h sec chs).impl E).function ((baseFile h sec chs).front E).length (chs.map (·.1))) =
        .ok raw)
      (fp : FP) (hd : fp.data = (packedFile E h sec chs).bytes E)
      (hl : fp.log = seqLog 0 (frontWrites E h sec ++ chunksWrites ((baseFile h sec chs).impl E) (chs.map (·.1))) ++
        [(32 + (optSecBytes E sec).length, raw)])
      (hp : 32 ≤ fp.pos) :
      PackRun E md a m items h (.ok m') fp

theorem encodeOffsets_error_or (os : List Int) : (∃ raw, encodeOffsets os = .ok raw) ∨ ∃ e, encodeOffsets os = .error e := by
  cases encodeOffsets os with
  | ok r => exact .inl ⟨r, rfl⟩
  | error e => exact .inr ⟨e, rfl⟩

theorem base_wrote_data {E : Env μ} {h : BloscpackHeader} {sec : Option (Section μ)} (hv : ∀ s, sec = some s → s.Valid E)
    (chs : List (Bytes × Bytes)) (cs : List Bytes) :
    (frontWrites E h sec ++ chunksWrites ((baseFile h sec chs).impl E) cs).flatten =
      (baseFile h sec chs).front E ++ Spec.records ((baseFile h sec chs).impl E).function cs := by
  rw [List.flatten_append, frontWrites_flatten hv chs, chunksWrites_flatten]

def mkSink (h : BloscpackHeader) (impl : Hash) (fp : FP) (mt : Nat) (st : List Int) : FPSink := ⟨fp, mt, h, impl, st⟩

section
variable (h : BloscpackHeader) (impl : Hash) (fp : FP) (mt : Nat) (st : List Int)
@[simp] theorem mkSink_fp : (mkSink h impl fp mt st).fp = fp := rfl
@[simp] theorem mkSink_header : (mkSink h impl fp mt st).header = h := rfl
@[simp] theorem mkSink_impl : (mkSink h impl fp mt st).impl = impl := rfl
@[simp] theorem mkSink_mt : (mkSink h impl fp mt st).meta_total = mt := rfl
@[simp] theorem mkSink_st : (mkSink h impl fp mt st).offset_storage = st := rfl
end

theorem pack_run {E : Env μ} (L : E.Laws) (src : PlainSource) (n c l : Int) (md : Option μ) (a : BloscArgs) (b : BloscpackArgs)
    (m : MetadataArgs) (hn : 1 ≤ n) (items : List Bytes) (hsrc : src c l n = ⟨items, none⟩) (hlen : items.length = n.toNat) :
    (∃ e, packHeader n c l md a b = .error e ∧ pack E src (compressedFPSink E) n c l md a b m { fp := { data := [] } } =
      (.error e, { fp := { data := [] } })) ∨
    ∃ h, packHeader n c l md a b = .ok h ∧ PackRun E md a m items h
      (pack E src (compressedFPSink E) n c l md a b m { fp := { data := [] } }).1
      (pack E src (compressedFPSink E) n c l md a b m { fp := { data := [] } }).2.fp := by
  unfold pack
  cases hph : packHeader n c l md a b with
  | error e =>
    refine .inl ⟨e, rfl, ?_⟩
    rw [Proc.bind_of_error (Proc.ofExcept_apply _ _)]
  | ok h =>
    refine .inr ⟨h, rfl, ?_⟩
    obtain ⟨hok, -, -, -, -, -, -, -, hnch, -⟩ := packHeader_ok hph
    obtain ⟨impl, himpl, -, -⟩ := checksumLookup_of (hl := E.hashlib) hok.2.1
    have himpl' : h.checksumImpl E = .ok impl := himpl
    have hi := (checksumLookup_mem himpl).1
    have hbi : ∀ (sec : Option (Section μ)) chs, (baseFile h sec chs).impl E = impl := by
      intro sec chs; simp [File.impl, baseFile, himpl']
    rw [Proc.bind_of_ok (Proc.ofExcept_apply _ _)]
    -- configure
    have h1 : (compressedFPSink E).configure a h { fp := { data := [] } } =
        (.ok (), (mkSink h impl (wrote [] [] [] []) 0 [])) := by
      show (Proc.ofExcept (h.checksumImpl E) >>= _) _ = _
      rw [Proc.bind_of_ok (Proc.ofExcept_apply _ _ |>.trans (by rw [himpl']))]
      rfl
    rw [Proc.bind_of_ok h1]
    -- header
    have h2 : (compressedFPSink E).writeBloscpackHeader (mkSink h impl (wrote [] [] [] []) 0 []) =
        (.ok (), (mkSink h impl (wrote [] [] [] [h.bytes]) 0 [])) := by
      show (Proc.get >>= _) _ = _
      rw [Proc.bind_of_ok (Proc.get_apply _),
        Proc.bind_of_ok (Proc.ofExcept_apply _ _ |>.trans (by rw [mkSink_header, BloscpackHeader.encode_ok hok]))]
      exact onFP_of (s := mkSink h impl (wrote [] [] [] []) 0 []) (fpWrite_wrote _ _ _ _ _)
    rw [Proc.bind_of_ok h2]
    -- metadata
    have h3 : (∃ e, md.isSome ∧ prepareMetadata E md m = .error e ∧
        packMetadata (compressedFPSink E) md m (mkSink h impl (wrote [] [] [] [h.bytes]) 0 []) =
          (.error e, (mkSink h impl (wrote [] [] [] [h.bytes]) 0 []))) ∨
        ∃ sec m', SecFor E md m sec m' ∧ packMetadata (compressedFPSink E) md m (mkSink h impl (wrote [] [] [] [h.bytes]) 0 []) =
          (.ok m', (mkSink h impl (wrote [] [] [] ([h.bytes] ++ optSecWrites E sec)) (optSecBytes E sec).length [])) := by
      cases md with
      | none => exact .inr ⟨none, m, .inl ⟨rfl, rfl, rfl⟩, rfl⟩
      | some x =>
        cases hp : prepareMetadata E (some x) m with
        | error e => exact .inl ⟨e, rfl, rfl, writeMeta_sink_error hp _⟩
        | ok S =>
          obtain ⟨sec, hsec⟩ := prepareMetadata_ok L hp
          refine .inr ⟨some sec, S.args, .inr ⟨S, sec, rfl, hp, hsec, rfl, rfl⟩, ?_⟩
          refine (writeMeta_sink L hp hsec rfl).trans ?_
          simp [optSecWrites, optSecBytes, mkSink]
    rcases h3 with ⟨e, hm, he, h3⟩ | ⟨sec, m', hs, h3⟩
    · rw [Proc.bind_of_error h3]
      exact .metadata e _ hm he rfl
    rw [Proc.bind_of_ok h3]
    -- offsets placeholder
    have hn0 : 0 ≤ h.nchunks := by omega
    by_cases hb : 2 ^ 63 ≤ offsetsLen h
    · obtain ⟨st, h4⟩ := initOffsets_overflow (s := (mkSink h impl (wrote [] [] [] ([h.bytes] ++ optSecWrites E sec)) (optSecBytes E sec).length [])) hn0 hb
      have h4' : (compressedFPSink E).initOffsets (mkSink h impl (wrote [] [] [] ([h.bytes] ++ optSecWrites E sec)) (optSecBytes E sec).length []) = _ := h4
      rw [Proc.bind_of_error h4']
      exact .space sec m' hs hb _ rfl
    replace hb : offsetsLen h < 2 ^ 63 := by omega
    have h4 := initOffsets_wrote (s := (mkSink h impl (wrote [] [] [] ([h.bytes] ++ optSecWrites E sec)) (optSecBytes E sec).length [])) rfl hn0 hb
    have h4' : (compressedFPSink E).initOffsets (mkSink h impl (wrote [] [] [] ([h.bytes] ++ optSecWrites E sec)) (optSecBytes E sec).length []) =
        (.ok (), (mkSink h impl (wrote [] [] [] (frontWrites E h sec)) (optSecBytes E sec).length (if h.offsets then List.replicate h.nchunks.toNat (-1) else []))) := by
      refine h4.trans ?_
      simp [frontWrites, mkSink]
      exact ⟨rfl, rfl⟩
    rw [Proc.bind_of_ok h4']
    -- chunks
    simp only [hsrc]
    have hv := hs.valid
    have h5 := packLoop_wrote (E := E) a items (mkSink h impl (wrote [] [] [] (frontWrites E h sec)) (optSecBytes E sec).length (if h.offsets then List.replicate h.nchunks.toNat (-1) else [])) hi rfl []
        (if h.offsets then List.replicate h.nchunks.toNat (-1) else []) (by simp)
        (by intro ho; have ho : h.offsets = true := ho; simp [ho, hlen, hnch])
    simp only [List.length_nil] at h5
    rcases h5 with ⟨chs, e1, e2, h5⟩ | ⟨chs, d, rest, e, e1, e2, e3, h5⟩
    rotate_left
    · rw [Proc.bind_of_error h5]
      refine .chunk sec m' hs hb chs d rest e e1 e2 e3 _ ?_
      simp [afterChunks, hbi]
    rw [Proc.bind_of_ok h5]
    have hfr : (baseFile h sec chs).front E = h.bytes ++ optSecBytes E sec ++ placeholder h := by
      unfold File.front baseFile File.secBytes optSecBytes
      cases sec <;> simp
    have hclen : (chs.map (·.1)).length = h.nchunks.toNat := by
      rw [List.length_map, hnch, ← hlen, ← e1, List.length_map]
    have hfl := frontWrites_flatten (h := h) hv chs
    cases ho : h.offsets with
    | false =>
      have h6 : (compressedFPSink E).finalize (afterChunks (mkSink h impl (wrote [] [] [] (frontWrites E h sec)) (optSecBytes E sec).length (if h.offsets then List.replicate h.nchunks.toNat (-1) else [])) [] [] [] (frontWrites E h sec)
                   [] (if h.offsets then List.replicate h.nchunks.toNat (-1) else []) (chs.map (·.1))) =
          (.ok (), afterChunks (mkSink h impl (wrote [] [] [] (frontWrites E h sec)) (optSecBytes E sec).length (if h.offsets then List.replicate h.nchunks.toNat (-1) else [])) [] [] [] (frontWrites E h sec)
                   [] (if h.offsets then List.replicate h.nchunks.toNat (-1) else []) (chs.map (·.1))) := by
        show FPSink.finalize _ = _
        unfold FPSink.finalize
        rw [Proc.bind_of_ok (Proc.get_apply _), if_neg (by simp [afterChunks, ho])]
        rfl
      rw [ho] at h6
      rw [Proc.bind_of_ok h6]
      refine .plain sec m' hs hb chs e1 e2 ho _ ?_
      simp [afterChunks, hbi]
    | true =>
      have hst : (afterChunks (mkSink h impl (wrote [] [] [] (frontWrites E h sec)) (optSecBytes E sec).length (if true = true then List.replicate h.nchunks.toNat (-1) else [])) [] [] [] (frontWrites E h sec)
                   [] (if true = true then List.replicate h.nchunks.toNat (-1) else []) (chs.map (·.1))).offset_storage =
          Spec.positions ((baseFile h sec chs).impl E).function ((baseFile h sec chs).front E).length (chs.map (·.1)) := by
        show (if h.offsets = true then ([] : List Int) ++ (Spec.positions impl.function
          (([] : Bytes).length + (frontWrites E h sec).flatten.length) (chs.map (·.1)) ++ List.drop _ _) else _) = _
        rw [if_pos ho, hbi, ← hfl, if_pos rfl, List.drop_of_length_le (by rw [hclen]; simp)]
        simp only [List.nil_append, List.append_nil, List.length_nil, Nat.zero_add]
      have hdat : (afterChunks (mkSink h impl (wrote [] [] [] (frontWrites E h sec)) (optSecBytes E sec).length (if true = true then List.replicate h.nchunks.toNat (-1) else [])) [] [] [] (frontWrites E h sec)
                   [] (if true = true then List.replicate h.nchunks.toNat (-1) else []) (chs.map (·.1))).fp.data =
          (h.bytes ++ optSecBytes E sec) ++ (placeholder h ++ Spec.records impl.function (chs.map (·.1))) := by
        show ([] ++ (frontWrites E h sec ++ chunksWrites impl (chs.map (·.1))).flatten) ++ List.drop _ [] = _
        rw [List.drop_nil, List.append_nil, List.nil_append]
        have := base_wrote_data (E := E) (h := h) hv chs (chs.map (·.1))
        rw [hbi] at this
        rw [this, hfr]
        simp
      have hlog : (afterChunks (mkSink h impl (wrote [] [] [] (frontWrites E h sec)) (optSecBytes E sec).length (if true = true then List.replicate h.nchunks.toNat (-1) else [])) [] [] [] (frontWrites E h sec)
                   [] (if true = true then List.replicate h.nchunks.toNat (-1) else []) (chs.map (·.1))).fp.log =
          seqLog 0 (frontWrites E h sec ++ chunksWrites ((baseFile h sec chs).impl E) (chs.map (·.1))) := by
        simp [afterChunks, wrote, hbi]
      rw [ho] at h5
      generalize hT : (afterChunks (mkSink h impl (wrote [] [] [] (frontWrites E h sec)) (optSecBytes E sec).length (if true = true then List.replicate h.nchunks.toNat (-1) else [])) [] [] [] (frontWrites E h sec)
                   [] (if true = true then List.replicate h.nchunks.toNat (-1) else []) (chs.map (·.1))) = T at hst hdat hlog
      have hTh : T.header = h := by rw [← hT]; rfl
      have hTm : T.meta_total = (optSecBytes E sec).length := by rw [← hT]; rfl
      rcases finalize_wrote (s := T) (by rw [hTh]; exact ho) _ _ _ hdat hlog (by rw [← hT]; rfl)
        (by simp [BloscpackHeader.bytes_length, hTm]) with ⟨raw, hr, h6⟩ | ⟨e, hr, h6⟩
      · have h6' : (compressedFPSink E).finalize T = _ := h6
        rw [Proc.bind_of_ok h6']
        rw [hst] at hr
        refine .full sec m' hs hb chs e1 e2 ho raw hr _ ?_ ?_ ?_
        · have hrl : raw = Spec.int64s (Spec.positions ((baseFile h sec chs).impl E).function ((baseFile h sec chs).front E).length
              (chs.map (·.1))) := ((encodeOffsets_iff _ _).1 hr).2
          have hlen8 : raw.length = 8 * h.nchunks.toNat := by rw [hrl, int64s_length, positions_length, hclen]
          have hm0 : 0 ≤ h.max_app_chunks := hok.2.2.2.2.2.2.1.1
          have hdrop : (placeholder h ++ Spec.records impl.function (chs.map (·.1))).drop raw.length =
              Spec.int64s (List.replicate h.max_app_chunks.toNat (-1)) ++ Spec.records impl.function (chs.map (·.1)) := by
            rw [placeholder, ho, if_pos rfl]
            have : (h.nchunks + h.max_app_chunks).toNat = h.nchunks.toNat + h.max_app_chunks.toNat := by omega
            rw [this, ← List.replicate_append_replicate, int64s_append, List.append_assoc]
            rw [show raw.length = (Spec.int64s (List.replicate h.nchunks.toNat (-1))).length by
              rw [int64s_length, List.length_replicate, hlen8]]
            rw [List.drop_left]
          have hpi : (packedFile E h sec chs).impl E = impl := by simp [File.impl, packedFile, baseFile, himpl']
          have hps : (packedFile E h sec chs).secBytes E = optSecBytes E sec := by
            unfold File.secBytes optSecBytes; cases sec <;> rfl
          show (h.bytes ++ optSecBytes E sec ++ raw) ++ List.drop raw.length _ = _
          rw [hdrop]
          have hpo : (packedFile E h sec chs).offsets = raw ++ Spec.int64s (List.replicate h.max_app_chunks.toNat (-1)) := by
            rw [hrl, ← int64s_append]; exact if_pos ho
          unfold File.bytes File.front File.body
          rw [hpi, hps, hpo]
          simp [packedFile, baseFile]
        · simp [BloscpackHeader.bytes_length]
        · show 32 ≤ (h.bytes ++ optSecBytes E sec ++ raw).length
          simp [BloscpackHeader.bytes_length]
      · have h6' : (compressedFPSink E).finalize T = _ := h6
        rw [Proc.bind_of_error h6']
        rw [hst] at hr
        refine .offset sec m' hs hb chs e e1 e2 ho hr _ ?_ ?_
        · simp only [Z_data]
          unfold File.bytes File.body
          rw [hfr, hbi]
          simp [baseFile]
        · rfl

end Bloscpack
