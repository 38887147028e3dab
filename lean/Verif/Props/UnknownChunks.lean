import Verif.Props.Damage
import Verif.Props.Headers
/-
C52: headers that say that the number of chunks is unknown.
-/
namespace Bloscpack
variable {μ : Type}

theorem readBeginning_header_ok {E : Env μ} {fp fp' : FP} {hd : BloscpackHeader} {r}
    (h : readBeginning E fp = (.ok (hd, r), fp')) : hd.OK := by
  unfold readBeginning readBloscpackHeader at h
  simp only [Proc.bind_ok_iff] at h
  obtain ⟨hd', _, ⟨raw, _, -, hd2, _, h1, _, _, -, h2⟩, _, _, -, _, _, -, h3⟩ := h
  have h1 : BloscpackHeader.decode raw = .ok hd2 := congrArg Prod.fst h1
  simp only [Proc.pure, Prod.mk.injEq, Except.ok.injEq] at h2 h3
  have := (C05_header_strict raw hd2 h1).2.2.1
  rw [h2.1, h3.1.1] at this
  exact this

/-- C52 is violated: whatever follows a header without metadata and offsets that says that the number of chunks is
unknown, unpacking succeeds and returns nothing. -/
theorem C52_violated (E : Env μ) (h : BloscpackHeader) (hok : h.OK) (hv : h.format_version = 3) (hn : h.nchunks = -1)
    (ho : h.offsets = false) (hm : h.metadata = false) (rest : Bytes) :
    unpackBytesFromBytes E (h.bytes ++ rest) = .ok ([], none) := by
  have hz : ({ data := h.bytes ++ rest } : FP) = Z [] (h.bytes ++ rest) [] := rfl
  obtain ⟨impl, hi, -⟩ := checksumLookup_of (hl := E.hashlib) hok.2.1
  have hb : readBeginning E { data := h.bytes ++ rest } = (.ok (h, none, none, []), Z ([] ++ h.bytes) rest []) := by
    unfold readBeginning
    rw [hz, Proc.bind_of_ok (readHeader_ok hok hv _ _ _)]
    simp only [hm, readOffsets, ho]
    rfl
  have hi : h.checksumImpl E = .ok impl := hi
  refine unpackBytes_ok ?_
  unfold unpackFrom unpackFP
  rw [hb]
  simp only [hi]
  have hnn : (compressedFPSource h impl).nchunks.toNat = 0 := by show h.nchunks.toNat = 0; rw [hn]; rfl
  unfold unpack
  rw [hnn]
  rfl

/-- a header that meets the hypotheses, followed by a chunk -/
example : ∃ h : BloscpackHeader, h.OK ∧ h.format_version = 3 ∧ h.nchunks = -1 ∧ h.offsets = false ∧ h.metadata = false :=
  ⟨⟨3, false, false, "None", 1, 4, 4, -1, 0⟩, by unfold BloscpackHeader.OK Spec.HeaderFieldsOK; decide, rfl, rfl, rfl, rfl⟩

/-- with an offsets section: TypeError, nothing is output -/
theorem C52_offsets (E : Env μ) (h : BloscpackHeader) (hok : h.OK) (hv : h.format_version = 3) (hn : h.nchunks = -1)
    (ho : h.offsets = true) (hm : h.metadata = false) (rest : Bytes) :
    unpackBytesFromBytes E (h.bytes ++ rest) = .error .typeError := by
  have hz : ({ data := h.bytes ++ rest } : FP) = Z [] (h.bytes ++ rest) [] := rfl
  have hb : ∃ fp, readBeginning E { data := h.bytes ++ rest } = (.error .typeError, fp) := by
    refine ⟨Z ([] ++ h.bytes) rest [], ?_⟩
    unfold readBeginning
    rw [hz, Proc.bind_of_ok (readHeader_ok hok hv _ _ _)]
    have : h.totalProspectiveChunks = none := by simp [BloscpackHeader.totalProspectiveChunks, hn]
    simp only [hm, readOffsets, ho, if_true, this]
    rfl
  obtain ⟨fp, hb⟩ := hb
  refine unpackBytes_error (o := []) ?_ (by decide)
  unfold unpackFrom unpackFP
  rw [hb]

example : ∃ h : BloscpackHeader, h.OK ∧ h.format_version = 3 ∧ h.nchunks = -1 ∧ h.offsets = true ∧ h.metadata = false :=
  ⟨⟨3, true, false, "None", 1, 4, 4, -1, 0⟩, by unfold BloscpackHeader.OK Spec.HeaderFieldsOK; decide, rfl, rfl, rfl, rfl⟩

/-- C52, what holds: when the header announces a number of chunks, a successful unpack returns the contents of exactly
that many chunks of the input. -/
theorem C52_known_partial (E : Env μ) (L : E.Laws) (input out : Bytes) (md : Option μ)
    (h : unpackBytesFromBytes E input = .ok (out, md)) :
    ∃ hd mh os fp hash, readBeginning E { data := input, inMemory := true } = (.ok (hd, md, mh, os), fp) ∧
      checksumLookup E.hashlib hd.checksum = .ok hash ∧
      (hd.nchunks ≠ -1 → ∃ n : Nat, hd.nchunks = n ∧ Spec.Chunks E hash.function (input.drop fp.pos) n out) := by
  obtain ⟨hd, mh, os, fp, impl, h1, hl, h2⟩ := C22_only_verified E L input out md h
  refine ⟨hd, mh, os, fp, impl, h1, hl, fun hn => ⟨hd.nchunks.toNat, ?_, h2⟩⟩
  have hok : hd.OK := readBeginning_header_ok h1
  have := hok.2.2.2.2.2.1
  omega

end Bloscpack
