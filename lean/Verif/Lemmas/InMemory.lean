import Verif.Lemmas.Prim
import Verif.Lemmas.Headers
import Verif.Lemmas.MetaHeader
import Verif.Lemmas.Reader
import Verif.Model.FileIO
import Verif.Model.EntryPoints
import Verif.Spec.File
import Verif.Spec.Container
/-!
# A `BytesIO` and a file with the same contents
-/
namespace Bloscpack
variable {μ α β σ τ : Type}

/-- the `BytesIO` with the same contents and position -/
def FP.toMemory (fp : FP) : FP := { fp with inMemory := true }

@[simp] theorem FP.toMemory_data (fp : FP) : fp.toMemory.data = fp.data := rfl
@[simp] theorem FP.toMemory_pos (fp : FP) : fp.toMemory.pos = fp.pos := rfl
@[simp] theorem FP.toMemory_log (fp : FP) : fp.toMemory.log = fp.log := rfl

/-- the file with the same contents and position -/
def FP.toFile (fp : FP) : FP := { fp with inMemory := false }

@[simp] theorem FP.toFile_data (fp : FP) : fp.toFile.data = fp.data := rfl
@[simp] theorem FP.toFile_pos (fp : FP) : fp.toFile.pos = fp.pos := rfl
@[simp] theorem FP.toFile_log (fp : FP) : fp.toFile.log = fp.log := rfl

theorem FP.kind (fp : FP) : fp = fp.toFile ∨ fp = fp.toFile.toMemory := by
  obtain ⟨d, p, l, k⟩ := fp
  cases k
  · exact .inl rfl
  · exact .inr rfl

/-- a file object of the given kind -/
def FP.ofKind (k : Bool) (fp : FP) : FP := { fp with inMemory := k }

@[simp] theorem FP.ofKind_data (k : Bool) (fp : FP) : (fp.ofKind k).data = fp.data := rfl
@[simp] theorem FP.ofKind_pos (k : Bool) (fp : FP) : (fp.ofKind k).pos = fp.pos := rfl

/-- a procedure that does the same to a `BytesIO` as to a file -/
def MemSame (m : Proc FP α) : Prop := ∀ fp, m fp.toMemory = ((m fp).1, (m fp).2.toMemory)

namespace MemSame
theorem pure (a : α) : MemSame (Proc.pure a) := fun _ => rfl
theorem raise (e : Err) : MemSame (Proc.raise e : Proc FP α) := fun _ => rfl
theorem ofExcept (x : Except Err α) : MemSame (Proc.ofExcept x) := fun _ => rfl
theorem raiseIf (bad : Prop) [Decidable bad] (e : Err) : MemSame (Proc.raiseIf bad e) := by
  unfold Proc.raiseIf; split
  · exact raise e
  · exact pure ()
theorem bind {m : Proc FP α} {f : α → Proc FP β} (hm : MemSame m) (hf : ∀ a, MemSame (f a)) : MemSame (m >>= f) := by
  intro fp
  rw [Proc.bind_apply, Proc.bind_apply, hm fp]
  rcases m fp with ⟨x, s⟩
  cases x with
  | error e => rfl
  | ok a => exact hf a s
theorem read (n : Int) : MemSame (fpRead n) := fun _ => rfl
theorem write (bs : Bytes) : MemSame (fpWrite bs) := fun _ => rfl
theorem seek (n : Int) (hn : 0 ≤ n) : MemSame (fpSeek n) := by
  intro fp
  have h : ¬ n < 0 := by omega
  simp only [fpSeek_eq, FP.seek, if_neg h]; rfl
theorem tell : MemSame fpTell := fun _ => rfl

theorem writeZeros (n : Nat) : MemSame (writeZeros n) := by
  induction n with
  | zero => exact pure ()
  | succ n ih => exact bind (write _) fun _ => ih

theorem writeMetadata (E : Env μ) (md : Option μ) (m : MetadataArgs) : MemSame (writeMetadata E md m) := by
  refine bind (ofExcept _) fun S => bind (write _) fun _ => bind (write _) fun _ => bind (writeZeros _) fun _ => ?_
  split
  · exact bind (write _) fun _ => pure _
  · exact pure _

/-- what it does to a file object of any kind, in terms of what it does to the file with the same contents -/
theorem toFile {m : Proc FP α} (hm : MemSame m) (fp : FP) {x : Except Err α} {fp' : FP} (h : m fp.toFile = (x, fp'))
    (hk : fp'.inMemory = false) : m fp = (x, fp'.ofKind fp.inMemory) := by
  obtain ⟨d, p, l, k⟩ := fp
  cases k with
  | false =>
    rw [show (⟨d, p, l, false⟩ : FP) = FP.toFile ⟨d, p, l, false⟩ from rfl, h]
    obtain ⟨d', p', l', k'⟩ := fp'
    cases hk
    rfl
  | true =>
    rw [show (⟨d, p, l, true⟩ : FP) = FP.toMemory (FP.toFile ⟨d, p, l, true⟩) from rfl, hm, h]
    rfl

theorem readBloscpackHeader : MemSame readBloscpackHeader :=
  bind (read _) fun _ => bind (ofExcept _) fun _ => bind (raiseIf _ _) fun _ => pure _

theorem readOffsets (h : BloscpackHeader) : MemSame (readOffsets h) := by
  unfold Bloscpack.readOffsets
  split
  · cases h.totalProspectiveChunks with
    | none => exact raise _
    | some n => exact bind (raiseIf _ _) fun _ => bind (read _) fun _ => ofExcept _
  · exact pure _

end MemSame

/-- a relative seek that stays within the file -/
theorem fpSeekRel_toMemory (n : Int) (fp : FP) (h : ¬ (fp.pos : Int) + n < 0) :
    fpSeekRel n fp.toMemory = ((fpSeekRel n fp).1, (fpSeekRel n fp).2.toMemory) := by
  rw [fpSeekRel_eq, fpSeekRel_eq]; unfold FP.seekRel
  rw [if_neg (by simp [h]), if_neg (by simp [h])]
  rfl

theorem readCompressedChunk_toMemory (impl : Hash) : MemSame (readCompressedChunk impl) := by
  intro fp
  unfold readCompressedChunk
  rw [Proc.bind_apply, Proc.bind_apply, MemSame.read _ fp]
  simp only [fpRead_eq]
  rw [Proc.bind_apply, Proc.bind_apply]
  simp only [Proc.ofExcept_apply]
  cases hd : decodeBloscHeader (fp.read ↑BLOSC_HEADER_LENGTH).1 with
  | error e => rfl
  | ok bh =>
    simp only
    have hl : (16 : Int) ≤ (fp.read ↑BLOSC_HEADER_LENGTH).2.pos := by
      rcases Nat.lt_or_ge (fp.read ↑BLOSC_HEADER_LENGTH).1.length 16 with hlt | hge
      · obtain ⟨e, he⟩ := decodeBloscHeader_short hlt
        rw [hd] at he; cases he
      · simp only [FP.read] at hge ⊢
        omega
    rw [Proc.bind_apply, Proc.bind_apply, fpSeekRel_toMemory _ _ (by have : BLOSC_HEADER_LENGTH = 16 := rfl; omega)]
    rcases fpSeekRel (-(BLOSC_HEADER_LENGTH : Int)) (fp.read ↑BLOSC_HEADER_LENGTH).2 with ⟨x, s⟩
    cases x with
    | error e => rfl
    | ok u =>
      refine MemSame.bind (MemSame.read _) (fun c => ?_) s
      split
      · exact MemSame.bind (MemSame.read _) fun _ => MemSame.pure _
      · exact MemSame.pure _

/-- the unpacking loop -/
theorem unpackLoop_toMemory (h : BloscpackHeader) (impl : Hash) (put : Bytes → Proc τ Unit) : ∀ (fuel i : Nat) (fp : FP) (t : τ),
    unpackLoop (compressedFPSource h impl) put fuel i (fp.toMemory, t) =
      ((unpackLoop (compressedFPSource h impl) put fuel i (fp, t)).1,
        ((unpackLoop (compressedFPSource h impl) put fuel i (fp, t)).2.1.toMemory,
          (unpackLoop (compressedFPSource h impl) put fuel i (fp, t)).2.2)) := by
  intro fuel
  induction fuel with
  | zero => intro i fp t; rfl
  | succ n ih =>
    intro i fp t
    have hn : MemSame ((compressedFPSource h impl).next i) :=
      MemSame.bind (readCompressedChunk_toMemory impl) fun _ => MemSame.pure _
    unfold unpackLoop
    rw [Proc.bind_apply, Proc.bind_apply, Proc.onFst_apply, Proc.onFst_apply, hn fp]
    rcases (compressedFPSource h impl).next i fp with ⟨x, s⟩
    cases x with
    | error e => rfl
    | ok cd =>
      simp only
      rw [Proc.bind_apply, Proc.bind_apply]
      simp only [Proc.ofExcept_apply]
      cases checkDigest (compressedFPSource h impl).checksumImpl cd.1 cd.2 with
      | error e => rfl
      | ok u =>
        simp only
        rw [Proc.bind_apply, Proc.bind_apply, Proc.onSnd_apply, Proc.onSnd_apply]
        rcases put cd.1 t with ⟨y, t'⟩
        cases y with
        | error e => rfl
        | ok u' => exact ih (i + 1) s t'

/-- reading metadata from a `BytesIO` is the same as from a file unless the sizes point to before the beginning; then reading from the
file raises `OSError` -/
theorem readMetadata_toMemory (E : Env μ) (A R : Bytes) (l) :
    readMetadata E (Z A R l true) = ((readMetadata E (Z A R l)).1, (readMetadata E (Z A R l)).2.toMemory) ∨
    (readMetadata E (Z A R l)).1 = .error .osError ∧ 32 ≤ R.length ∧
      ∃ mh, MetadataHeader.decode (R.take 32) = .ok mh ∧ ((A.length + R.length : Nat) : Int) + mh.max_meta_size < mh.meta_comp_size := by
  unfold readMetadata
  have k1 : fpRead METADATA_HEADER_LENGTH (Z A R l true) = _ := fpRead_Z A R l 32 true
  have k2 : fpRead METADATA_HEADER_LENGTH (Z A R l) = _ := fpRead_Z A R l 32
  rw [Proc.bind_of_ok k1, Proc.bind_of_ok k2]
  cases hd : MetadataHeader.decode (R.take 32) with
  | error e => left; rfl
  | ok mh =>
    have h32 : 32 ≤ R.length := by
      have := (MetadataHeader.decode_ok hd).2
      simp at this; omega
    have hc := (MetadataHeader.decode_ok hd).1
    have hc0 : 0 ≤ mh.meta_comp_size := hc.2.2.2.2.2.2.2.1.1
    obtain ⟨c, hcc⟩ := Int.eq_ofNat_of_zero_le hc0
    have k3 : fpRead mh.meta_comp_size (Z (A ++ R.take 32) (R.drop 32) l true) =
        (.ok ((R.drop 32).take c), Z (A ++ R.take 32 ++ (R.drop 32).take c) ((R.drop 32).drop c) l true) := by rw [hcc]; exact fpRead_Z _ _ l c true
    have k4 : fpRead mh.meta_comp_size (Z (A ++ R.take 32) (R.drop 32) l) =
        (.ok ((R.drop 32).take c), Z (A ++ R.take 32 ++ (R.drop 32).take c) ((R.drop 32).drop c) l) := by rw [hcc]; exact fpRead_Z _ _ l c
    rw [Proc.bind_of_ok (Proc.ofExcept_apply _ _), Proc.bind_of_ok (Proc.ofExcept_apply _ _), Proc.bind_of_ok k3, Proc.bind_of_ok k4, hcc]
    by_cases hlt : (((A ++ R.take 32 ++ (R.drop 32).take c).length : Nat) : Int) + (mh.max_meta_size - (c : Int)) < 0
    · refine .inr ⟨?_, h32, mh, rfl, ?_⟩
      · rw [Proc.bind_apply]
        have : fpSeekRel (mh.max_meta_size - (c : Int)) (Z (A ++ R.take 32 ++ (R.drop 32).take c) ((R.drop 32).drop c) l) =
            (.error .osError, Z (A ++ R.take 32 ++ (R.drop 32).take c) ((R.drop 32).drop c) l) := by
          rw [fpSeekRel_eq]; unfold FP.seekRel
          rw [if_pos ⟨hlt, rfl⟩]
        rw [this]
      · have hm0 : 0 ≤ mh.max_meta_size := hc.2.2.2.2.2.2.1.1
        simp only [List.length_append, List.length_take, List.length_drop] at hlt
        omega
    · left
      have hsk : fpSeekRel (mh.max_meta_size - (c : Int)) (Z (A ++ R.take 32 ++ (R.drop 32).take c) ((R.drop 32).drop c) l true) = _ :=
        fpSeekRel_toMemory _ (Z (A ++ R.take 32 ++ (R.drop 32).take c) ((R.drop 32).drop c) l) hlt
      rw [Proc.bind_apply, Proc.bind_apply, hsk]
      rcases fpSeekRel (mh.max_meta_size - (c : Int)) (Z (A ++ R.take 32 ++ (R.drop 32).take c) ((R.drop 32).drop c) l) with ⟨x, s⟩
      cases x with
      | error e => rfl
      | ok u =>
        simp only
        have key : MemSame (if mh.meta_checksum ≠ "None" then do
            let impl ← Proc.ofExcept (checksumLookup E.hashlib mh.meta_checksum)
            let expected ← fpRead impl.size
            Proc.raiseIf (impl.function ((R.drop 32).take c) ≠ expected) .checksumMismatch
            let m ← Proc.ofExcept (loadMetadata E mh ((R.drop 32).take c))
            Proc.pure (m, mh)
          else do
            let m ← Proc.ofExcept (loadMetadata E mh ((R.drop 32).take c))
            Proc.pure (m, mh)) := by
          split
          · exact MemSame.bind (MemSame.ofExcept _) fun _ => MemSame.bind (MemSame.read _) fun _ => MemSame.bind (MemSame.raiseIf _ _) fun _ =>
              MemSame.bind (MemSame.ofExcept _) fun _ => MemSame.pure _
          · exact MemSame.bind (MemSame.ofExcept _) fun _ => MemSame.pure _
        exact key s

/-- the headers of the file are in order, and the metadata sizes point to before the beginning -/
def OvershootsAt (x : Bytes) : Prop :=
  ∃ h mh, BloscpackHeader.decode (x.take 32) = .ok h ∧ h.format_version = 3 ∧ h.metadata = true ∧
    MetadataHeader.decode (slice x 32 64) = .ok mh ∧ (x.length : Int) + mh.max_meta_size < mh.meta_comp_size

/-- reading the beginning -/
theorem readBeginning_toMemory (E : Env μ) (x : Bytes) :
    readBeginning E { data := x, inMemory := true } =
      ((readBeginning E ({ data := x } : FP)).1, (readBeginning E ({ data := x } : FP)).2.toMemory) ∨
    (readBeginning E ({ data := x } : FP)).1 = .error .osError ∧ OvershootsAt x := by
  have hz : ({ data := x, inMemory := true } : FP) = Z [] x [] true := rfl
  have hz' : ({ data := x } : FP) = Z [] x [] := rfl
  rw [hz, hz']
  unfold readBeginning
  cases hh : (readBloscpackHeader (Z [] x [])).1 with
  | error e =>
    left
    have h1 : readBloscpackHeader (Z [] x []) = (.error e, (readBloscpackHeader (Z [] x [])).2) := by rw [← hh]
    have h2 : readBloscpackHeader (Z [] x [] true) = (.error e, (readBloscpackHeader (Z [] x [])).2.toMemory) := by
      rw [← hh]; exact MemSame.readBloscpackHeader (Z [] x [])
    rw [Proc.bind_of_error h1, Proc.bind_of_error h2]
  | ok h =>
    have hfacts : readBloscpackHeader (Z [] x []) = (.ok h, Z (x.take 32) (x.drop 32) []) ∧
        BloscpackHeader.decode (x.take 32) = .ok h ∧ h.format_version = 3 ∧ 32 ≤ x.length := by
      unfold readBloscpackHeader at hh ⊢
      have k1 : BLOSCPACK_HEADER_LENGTH = 32 := rfl
      have k2 : fpRead BLOSCPACK_HEADER_LENGTH (Z [] x []) = (.ok (x.take 32), Z (x.take 32) (x.drop 32) []) := by
        rw [k1]; exact fpRead_Z [] x [] 32
      rw [Proc.bind_of_ok k2] at hh ⊢
      cases hd : BloscpackHeader.decode (x.take 32) with
      | error e => rw [hd, Proc.bind_of_error (Proc.ofExcept_apply _ _)] at hh; cases hh
      | ok h' =>
        rw [hd, Proc.bind_of_ok (Proc.ofExcept_apply _ _)] at hh
        rw [Proc.bind_of_ok (Proc.ofExcept_apply _ _)]
        have hl : (x.take 32).length = 32 := by
          rw [((BloscpackHeader.decode_iff _ _).1 hd).2]; exact BloscpackHeader.bytes_length _
        simp only [List.length_take] at hl
        by_cases hv : FORMAT_VERSION ≠ h'.format_version
        · rw [Proc.bind_of_error (Proc.raiseIf_pos hv _ _)] at hh; cases hh
        · rw [Proc.bind_of_ok (Proc.raiseIf_neg hv _ _)] at hh ⊢
          cases hh
          refine ⟨rfl, rfl, ?_, by omega⟩
          have : FORMAT_VERSION = 3 := rfl
          have := Classical.not_not.1 hv
          omega
    obtain ⟨h1, h3, h4, h5⟩ := hfacts
    have h2 : readBloscpackHeader (Z [] x [] true) = (.ok h, Z (x.take 32) (x.drop 32) [] true) := by
      have := MemSame.readBloscpackHeader (Z [] x [])
      rw [h1] at this
      exact this
    rw [Proc.bind_of_ok h1, Proc.bind_of_ok h2]
    have hrest : ∀ mm : Option μ × Option MetadataHeader, MemSame (readOffsets h >>= fun offsets => Proc.pure (h, mm.1, mm.2, offsets)) :=
      fun mm => MemSame.bind (MemSame.readOffsets h) fun _ => MemSame.pure _
    by_cases hm : h.metadata = true
    · rw [if_pos hm]
      rcases readMetadata_toMemory E (x.take 32) (x.drop 32) [] with hr | ⟨hr, h32, mh, hd, hlt⟩
      · left
        simp only [Proc.bind_apply, hr]
        rcases readMetadata E (Z (x.take 32) (x.drop 32) []) with ⟨y, s⟩
        cases y with
        | error e => rfl
        | ok r => exact hrest (r.1, some r.2) s
      · right
        refine ⟨?_, h, mh, h3, h4, hm, hd, ?_⟩
        · rw [Proc.bind_apply, Proc.bind_apply]
          rcases hq : readMetadata E (Z (x.take 32) (x.drop 32) []) with ⟨y, s⟩
          rw [hq] at hr
          simp only at hr
          subst hr
          rfl
        · rw [← List.length_append, List.take_append_drop] at hlt
          exact hlt
    · rw [if_neg hm]
      left
      exact hrest (none, none) (Z (x.take 32) (x.drop 32) [])

/-- unpacking bytes is the same as unpacking a file with these contents, unless the metadata sizes point to before the beginning; then
unpacking the file raises `OSError` -/
theorem unpackFP_toMemory (E : Env μ) (x : Bytes) :
    unpackFP E { data := x, inMemory := true } = unpackFrom E x ∨ unpackFrom E x = (.error .osError, []) ∧ OvershootsAt x := by
  unfold unpackFrom unpackFP
  rcases readBeginning_toMemory E x with h | ⟨h, ho⟩
  · left
    rw [h]
    rcases readBeginning E ({ data := x } : FP) with ⟨y, s⟩
    cases y with
    | error e => rfl
    | ok r =>
      obtain ⟨hd, md, mh, os⟩ := r
      simp only
      cases hd.checksumImpl E with
      | error e => rfl
      | ok impl =>
        simp only [unpack]
        rw [unpackLoop_toMemory]
  · right
    refine ⟨?_, ho⟩
    rcases hq : readBeginning E ({ data := x } : FP) with ⟨y, s⟩
    rw [hq] at h
    simp only at h
    subst h
    rfl

theorem unpackFP_of_ok {E : Env μ} {x : Bytes} {md : Option μ} {o : Bytes} (h : unpackFrom E x = (.ok md, o)) :
    unpackFP E { data := x, inMemory := true } = (.ok md, o) := by
  rcases unpackFP_toMemory E x with h1 | ⟨h1, -⟩
  · rw [h1, h]
  · rw [h] at h1; cases h1

theorem unpackFP_of_error {E : Env μ} {x : Bytes} {e : Err} {o : Bytes} (h : unpackFrom E x = (.error e, o)) (he : e ≠ .osError) :
    unpackFP E { data := x, inMemory := true } = (.error e, o) := by
  rcases unpackFP_toMemory E x with h1 | ⟨h1, -⟩
  · rw [h1, h]
  · rw [h] at h1; cases h1; exact absurd rfl he

/-- unpacking bytes in memory, from what unpacking a file with these bytes gives -/
theorem unpackBytes_ok {E : Env μ} {x : Bytes} {md : Option μ} {o : Bytes} (h : unpackFrom E x = (.ok md, o)) :
    unpackBytesFromBytes E x = .ok (o, md) := by
  unfold unpackBytesFromBytes; rw [unpackFP_of_ok h]

theorem unpackBytes_error {E : Env μ} {x o : Bytes} {e : Err} (h : unpackFrom E x = (.error e, o)) (he : e ≠ .osError) :
    unpackBytesFromBytes E x = .error e := by
  unfold unpackBytesFromBytes; rw [unpackFP_of_error h he]

theorem unpackFP_of_not {E : Env μ} {x : Bytes} (h : ¬ OvershootsAt x) : unpackFP E { data := x, inMemory := true } = unpackFrom E x := by
  rcases unpackFP_toMemory E x with h1 | ⟨-, h1⟩
  · exact h1
  · exact absurd h1 h

/-- if unpacking a file fails so does unpacking its bytes in memory, unless the metadata sizes point to before the beginning -/
theorem unpackBytes_error' {E : Env μ} {x o : Bytes} {e : Err} (h : unpackFrom E x = (.error e, o)) (hx : ¬ OvershootsAt x) :
    unpackBytesFromBytes E x = .error e := by
  unfold unpackBytesFromBytes; rw [unpackFP_of_not hx, h]

/-- the metadata sizes of a readable file, cut anywhere, do not point to before its beginning -/
theorem File.Pre.not_overshoots {E : Env μ} {F : File μ} (hv : F.Pre E) (k : Nat) : ¬ OvershootsAt ((F.bytes E).take k) := by
  rintro ⟨h, mh, h1, -, h3, h4, h5⟩
  have hl : (slice ((F.bytes E).take k) 32 64).length = 32 := (MetadataHeader.decode_ok h4).2
  have hk : 64 ≤ ((F.bytes E).take k).length := by
    simp only [slice, List.length_take, List.length_drop] at hl ⊢
    omega
  have hk' : 64 ≤ k := by rw [List.length_take] at hk; omega
  have e1 : ((F.bytes E).take k).take 32 = F.header.bytes := by
    rw [List.take_take, Nat.min_eq_left (by omega)]
    unfold File.bytes File.front
    simp only [List.append_assoc]
    rw [List.take_left' F.header.bytes_length]
  rw [e1, BloscpackHeader.decode_bytes hv.ok] at h1
  cases h1
  rw [hv.meta_flag] at h3
  obtain ⟨s, hs⟩ := Option.isSome_iff_exists.1 h3
  have hsv := hv.sec_ok s hs
  have e2 : slice ((F.bytes E).take k) 32 64 = s.header.bytes := by
    have : ∃ rest, F.bytes E = F.header.bytes ++ (s.header.bytes ++ rest) := by
      unfold File.bytes File.front File.secBytes
      rw [hs]
      unfold Section.bytes
      simp only [List.append_assoc]
      exact ⟨_, rfl⟩
    obtain ⟨rest, this⟩ := this
    rw [slice, List.drop_take, List.take_take, Nat.min_eq_left (by omega), this, List.drop_left' F.header.bytes_length,
      List.take_left' s.header.bytes_length]
  rw [e2, MetadataHeader.decode_bytes hsv.ok] at h4
  obtain ⟨-, h6⟩ := (MetadataHeader.new_iff _ _).1 h4
  subst h6
  have := hsv.fits
  simp only at h5
  omega

end Bloscpack
