import Verif.Props.RoundTrip
import Verif.Examples.Toy
/-!
C46: where unpacking bytes in memory and unpacking a file with the same bytes differ.
-/
namespace Bloscpack
variable {μ : Type}

/-- C46 is violated: take a header that announces metadata and no chunks, and a metadata section that claims to be so much longer than
its reserved size that going back by the difference leads to before the beginning of the file. `unpack_bytes_from_bytes` accepts it (an
in-memory file stops at its beginning); `unpack_bytes_from_file` and `unpack_file_from_file` raise `OSError` for a file with the same
contents. -/
theorem C46_unpack_violated (E : Env μ) (h : BloscpackHeader) (hok : h.OK) (hv : h.format_version = 3) (hm : h.metadata = true)
    (ho : h.offsets = false) (hn : h.nchunks ≤ 0) (mh : MetadataHeader) (hmok : mh.OK) (hmagic : mh.magic_format = [74, 83, 79, 78])
    (huser : mh.user_codec = []) (hck : mh.meta_checksum = "None") (hcodec : mh.meta_codec = "None") (text : Bytes) (md : Option μ)
    (hload : E.loads text = .ok md) (hlong : 64 + (text.length : Int) + mh.max_meta_size < mh.meta_comp_size) :
    Spec.Overshoots (h.bytes ++ (mh.bytes ++ text)) ∧
    unpackBytesFromBytes E (h.bytes ++ (mh.bytes ++ text)) = .ok ([], md) ∧
    ∀ (fs : FS) (i o : String), fs.files i = some (h.bytes ++ (mh.bytes ++ text)) → fs.canWrite o = true → i ≠ o →
      unpackBytesFromFile E fs i = .error .osError ∧ (unpackFileFromFile E fs i o).1 = .error .osError := by
  have hdec : MetadataHeader.decode mh.bytes = .ok mh := by
    rw [MetadataHeader.decode_bytes hmok, hmagic, huser,
      strip_padded8 0 0 [74, 83, 79, 78] (by decide) (by decide) (by decide) (by decide),
      strip_padded8 0 0 [] (by decide) (by decide) (by decide) (by decide)]
    have : ({ mh with magic_format := [74, 83, 79, 78], user_codec := [] } : MetadataHeader) = mh := by
      rw [← hmagic, ← huser]
    rw [this]
    exact (MetadataHeader.new_iff _ _).2 ⟨hmok, rfl⟩
  have hover : OvershootsAt (h.bytes ++ (mh.bytes ++ text)) := by
    refine ⟨h, mh, ?_, hv, hm, ?_, ?_⟩
    · rw [List.take_left' h.bytes_length]
      exact BloscpackHeader.decode_bytes hok
    · rw [slice, List.drop_left' h.bytes_length, List.take_left' mh.bytes_length]
      exact hdec
    · rw [List.length_append, List.length_append, h.bytes_length, mh.bytes_length]
      omega
  have hcomp : (text.length : Int) ≤ mh.meta_comp_size := by
    have := hmok.2.2.2.2.2.2.1.1
    omega
  -- the first steps, in memory or not
  have hread : ∀ b : Bool, fpRead METADATA_HEADER_LENGTH (Z h.bytes (mh.bytes ++ text) [] b) =
      (.ok mh.bytes, Z (h.bytes ++ mh.bytes) text [] b) := by
    intro b
    have := fpRead_Z h.bytes (mh.bytes ++ text) [] 32 b
    rw [List.take_left' mh.bytes_length, List.drop_left' mh.bytes_length] at this
    exact this
  have hbody : ∀ b : Bool, fpRead mh.meta_comp_size (Z (h.bytes ++ mh.bytes) text [] b) =
      (.ok text, Z (h.bytes ++ mh.bytes ++ text) [] [] b) := by
    intro b
    have := fpRead_Z (h.bytes ++ mh.bytes) text [] mh.meta_comp_size.toNat b
    rw [List.take_of_length_le (by omega), List.drop_eq_nil_of_le (by omega), Int.toNat_of_nonneg (by omega)] at this
    exact this
  have hlen : (h.bytes ++ mh.bytes ++ text).length = 64 + text.length := by
    rw [List.length_append, List.length_append, h.bytes_length, mh.bytes_length]
  have hmem : readMetadata E (Z h.bytes (mh.bytes ++ text) [] true) =
      (.ok (md, mh), { data := h.bytes ++ mh.bytes ++ text, pos := 0, inMemory := true }) := by
    unfold readMetadata
    rw [Proc.bind_of_ok (hread true), Proc.bind_of_ok (Proc.ofExcept_apply _ _ |>.trans (by rw [hdec])), Proc.bind_of_ok (hbody true)]
    have hsk : fpSeekRel (mh.max_meta_size - mh.meta_comp_size) (Z (h.bytes ++ mh.bytes ++ text) [] [] true) =
        (.ok (), { data := h.bytes ++ mh.bytes ++ text, pos := 0, inMemory := true }) := by
      rw [fpSeekRel_eq]; unfold FP.seekRel
      simp only [Z, hlen]
      rw [if_neg (by simp), Int.toNat_eq_zero.2 (by omega), List.append_nil]
    rw [Proc.bind_of_ok hsk]
    simp only [hck, ne_eq, not_true_eq_false, if_false]
    have hl : loadMetadata E mh text = .ok md := by
      unfold loadMetadata
      rw [hcodec, hmagic]
      simp only [ne_eq, not_true_eq_false, if_false]
      exact hload
    rw [Proc.bind_of_ok (Proc.ofExcept_apply _ _ |>.trans (by rw [hl]))]
    rfl
  have hfile : ∃ s, readMetadata E (Z h.bytes (mh.bytes ++ text) []) = (.error .osError, s) := by
    unfold readMetadata
    rw [Proc.bind_of_ok (hread false), Proc.bind_of_ok (Proc.ofExcept_apply _ _ |>.trans (by rw [hdec])), Proc.bind_of_ok (hbody false)]
    have hsk : fpSeekRel (mh.max_meta_size - mh.meta_comp_size) (Z (h.bytes ++ mh.bytes ++ text) [] []) =
        (.error .osError, Z (h.bytes ++ mh.bytes ++ text) [] []) := by
      rw [fpSeekRel_eq]; unfold FP.seekRel
      simp only [Z, hlen]
      rw [if_pos ⟨by omega, trivial⟩]
    exact ⟨_, Proc.bind_of_error hsk⟩
  have hf : unpackFrom E (h.bytes ++ (mh.bytes ++ text)) = (.error .osError, []) := by
    obtain ⟨s, hfile⟩ := hfile
    have hz : ({ data := h.bytes ++ (mh.bytes ++ text) } : FP) = Z [] (h.bytes ++ (mh.bytes ++ text)) [] := rfl
    unfold unpackFrom unpackFP readBeginning
    rw [hz, Proc.bind_of_ok (readHeader_ok hok hv _ _ _)]
    simp only [hm, if_true, List.nil_append]
    rw [Proc.bind_of_error (Proc.bind_of_error hfile)]
  refine ⟨overshoots_of hover, ?_, fun fs i o hi hw hne => ?_⟩
  · have hrh : readBloscpackHeader { data := h.bytes ++ (mh.bytes ++ text), inMemory := true } =
        (.ok h, Z ([] ++ h.bytes) (mh.bytes ++ text) [] true) := by
      have := MemSame.readBloscpackHeader (Z [] (h.bytes ++ (mh.bytes ++ text)) [])
      rw [readHeader_ok hok hv _ _ _] at this
      exact this
    obtain ⟨impl, himpl, -⟩ := checksumLookup_of (hl := E.hashlib) hok.2.1
    have himpl : h.checksumImpl E = .ok impl := himpl
    have hbeg : readBeginning E { data := h.bytes ++ (mh.bytes ++ text), inMemory := true } =
        (.ok (h, md, some mh, []), { data := h.bytes ++ mh.bytes ++ text, pos := 0, inMemory := true }) := by
      unfold readBeginning
      rw [Proc.bind_of_ok hrh]
      simp only [hm, if_true, List.nil_append, readOffsets, ho]
      rw [Proc.bind_of_ok (a := (md, some mh)) (s' := { data := h.bytes ++ mh.bytes ++ text, pos := 0, inMemory := true })
        (by rw [Proc.bind_of_ok hmem]; rfl)]
      rfl
    unfold unpackBytesFromBytes unpackFP
    rw [hbeg]
    simp only [himpl]
    have hnn : (compressedFPSource h impl).nchunks.toNat = 0 := by show h.nchunks.toNat = 0; omega
    unfold unpack
    rw [hnn]
    rfl
  · have h1 : unpackBytesFromFile E fs i = .error .osError := by rw [unpackBytesFromFile_eq E hi, hf]
    obtain ⟨fs', h2⟩ := ((C46_unpack_files E fs i o _ hi hw hne).2.1 .osError).1 h1
    exact ⟨h1, by rw [h2]⟩

/-- such headers, and a metadata text that the toy serializer reads -/
def Toy.overshootHeader : BloscpackHeader := ⟨3, false, true, "None", 1, 4, 4, 0, 0⟩
def Toy.overshootMeta : MetadataHeader := ⟨[74, 83, 79, 78], List.replicate 8 '0', "None", "None", 0, 3, 3, 100, []⟩

example : Toy.overshootHeader.OK ∧ Toy.overshootMeta.OK := by
  unfold BloscpackHeader.OK MetadataHeader.OK Spec.HeaderFieldsOK Spec.MetaFieldsOK
  decide

example : Toy.env.loads [91, 49, 49] = .ok (some 2) ∧
    64 + (([91, 49, 49] : Bytes).length : Int) + Toy.overshootMeta.max_meta_size < Toy.overshootMeta.meta_comp_size := by decide

example : unpackBytesFromBytes Toy.env (Toy.overshootHeader.bytes ++ (Toy.overshootMeta.bytes ++ [91, 49, 49])) = .ok ([], some 2) ∧
    (unpackFrom Toy.env (Toy.overshootHeader.bytes ++ (Toy.overshootMeta.bytes ++ [91, 49, 49]))).1 = .error .osError := by
  decide +kernel

end Bloscpack
