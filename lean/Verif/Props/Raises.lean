import Verif.Lemmas.Raises
import Verif.Lemmas.InMemory
import Verif.Props.Damage
import Verif.Props.Append
import Verif.Examples.Toy
/-!
C84: which exceptions unpacking, appending and rewriting can raise, whatever the file holds.
-/
namespace Bloscpack
variable {μ : Type}

/-- whatever a procedure on files raises satisfies `P`, or is an `OSError` on a file on disk -/
def FRaises {α : Type} (P : Err → Prop) (p : Proc FP α) : Prop :=
  ∀ fp, (p fp).2.inMemory = fp.inMemory ∧ ∀ e, (p fp).1 = .error e → P e ∨ e = .osError ∧ fp.inMemory = false

namespace FRaises
variable {α β : Type} {P : Err → Prop}

theorem pure (a : α) : FRaises P (Proc.pure a) := fun _ => ⟨rfl, fun _ h => nomatch h⟩
theorem raise {e : Err} (h : P e) : FRaises P (Proc.raise e : Proc FP α) := fun _ => ⟨rfl, fun _ h' => by cases h'; exact .inl h⟩
theorem ofExcept {x : Except Err α} (h : ERaises P x) : FRaises P (Proc.ofExcept x) := fun _ => ⟨rfl, fun e h' => .inl (h e h')⟩
theorem raiseIf (b : Prop) [Decidable b] {e : Err} (h : P e) : FRaises P (Proc.raiseIf b e) := by
  unfold Proc.raiseIf
  split
  · exact raise h
  · exact pure ()
theorem bind {p : Proc FP α} {f : α → Proc FP β} (hp : FRaises P p) (hf : ∀ a, FRaises P (f a)) : FRaises P (p >>= f) := by
  intro fp
  obtain ⟨h1, h2⟩ := hp fp
  show (Proc.bind p f fp).2.inMemory = _ ∧ ∀ e, (Proc.bind p f fp).1 = _ → _
  unfold Proc.bind
  generalize p fp = q at h1 h2
  obtain ⟨r, fp'⟩ := q
  cases r with
  | error e => exact ⟨h1, fun e' he => h2 e' (by cases he; rfl)⟩
  | ok a =>
    have h' := hf a fp'
    simp only at h1 ⊢
    rw [h1] at h'
    exact h'
theorem read (n : Int) : FRaises P (fpRead n) := fun _ => ⟨rfl, fun _ h => nomatch h⟩
theorem write (b : Bytes) : FRaises P (fpWrite b) := fun _ => ⟨rfl, fun _ h => nomatch h⟩
theorem tell : FRaises P fpTell := fun _ => ⟨rfl, fun _ h => nomatch h⟩
theorem seekRel (n : Int) : FRaises P (fpSeekRel n) := by
  intro fp
  rw [fpSeekRel_eq]; unfold FP.seekRel
  by_cases h : (fp.pos : Int) + n < 0 ∧ fp.inMemory = false
  · simp only [if_pos h]
    exact ⟨trivial, fun e he => by cases he; exact .inr ⟨rfl, h.2⟩⟩
  · simp only [if_neg h]
    exact ⟨trivial, fun e he => nomatch he⟩
theorem seek (n : Int) (hP : P .valueError) : FRaises P (fpSeek n) := by
  intro fp
  simp only [fpSeek_eq]; unfold FP.seek
  by_cases h : n < 0
  · simp only [if_pos h]
    refine ⟨trivial, fun e he => ?_⟩
    cases hm : fp.inMemory <;> rw [hm] at he <;> cases he
    · exact .inr ⟨rfl, rfl⟩
    · exact .inl hP
  · simp only [if_neg h]
    exact ⟨trivial, fun e he => nomatch he⟩

theorem mono {P Q : Err → Prop} {p : Proc FP α} (h : FRaises P p) (hPQ : ∀ e, P e → Q e) : FRaises Q p := fun fp =>
  ⟨(h fp).1, fun e he => ((h fp).2 e he).imp (hPQ e) id⟩

end FRaises

/-- the exceptions of the libraries that take part in reading a file -/
def Spec.ReadLibraryRaises (E : Env μ) (e : Err) : Prop :=
  (∃ c, E.decompress c = .error e) ∨ (∃ c, E.zdecompress c = .error e) ∨ ∃ t, E.loads t = .error e

/-- the exceptions when reading the header and the metadata of a file, apart from `OSError` -/
def Spec.HeadRaises (E : Env μ) (e : Err) : Prop :=
  e ∈ [Err.valueError, .formatVersionMismatch, .indexError, .structError, .typeError, .checksumMismatch, .keyError] ∨
    (∃ c, E.zdecompress c = .error e) ∨ ∃ t, E.loads t = .error e

/-- the exceptions of bloscpack itself when reading a file, apart from `OSError` -/
def Spec.ReadRaises (E : Env μ) (e : Err) : Prop :=
  e ∈ [Err.valueError, .formatVersionMismatch, .indexError, .structError, .typeError, .checksumMismatch, .keyError, .overflowError] ∨
    Spec.ReadLibraryRaises E e

theorem Spec.HeadRaises.read {E : Env μ} {e : Err} (h : Spec.HeadRaises E e) : Spec.ReadRaises E e := by
  rcases h with h | h
  · exact .inl (by simp only [List.mem_cons, List.not_mem_nil, or_false] at h ⊢; rcases h with h | h | h | h | h | h | h <;> simp [h])
  · exact .inr (.inr h)

section
variable (E : Env μ)

theorem FRaises.readBloscpackHeader : FRaises (Spec.HeadRaises E) readBloscpackHeader := by
  unfold Bloscpack.readBloscpackHeader
  exact bind (read _) fun _ => bind (ofExcept (ERaises.headerDecode _ (.inl (by simp)) (.inl (by simp)))) fun _ =>
    bind (raiseIf _ (.inl (by simp))) fun _ => pure _

theorem ERaises.checksumLookup {P : Err → Prop} (hl) (name : String) (h : P .keyError) : ERaises P (checksumLookup hl name) := by
  unfold Bloscpack.checksumLookup
  split
  · exact ok _
  · exact error h

theorem ERaises.loadMetadata (h : MetadataHeader) (b : Bytes) : ERaises (Spec.HeadRaises E) (loadMetadata E h b) := by
  unfold Bloscpack.loadMetadata
  refine bind ?_ fun raw _ => bind ?_ fun _ _ => ?_
  · split
    · unfold codecDecompress
      split
      · exact ok _
      · split
        · exact fun e he => .inr (.inl ⟨_, he⟩)
        · exact error (.inl (by simp))
    · exact ok _
  · unfold serializerLookup
    split
    · exact ok _
    · exact error (.inl (by simp))
  · exact fun e he => .inr (.inr ⟨_, he⟩)

theorem FRaises.readMetadata : FRaises (Spec.HeadRaises E) (readMetadata E) := by
  unfold Bloscpack.readMetadata
  refine bind (read _) fun _ => bind (ofExcept (ERaises.metaHeaderDecode _ (.inl (by simp)) (.inl (by simp)) (.inl (by simp)))) fun h =>
    bind (read _) fun _ => bind (seekRel _) fun _ => ?_
  split
  · exact bind (ofExcept (ERaises.checksumLookup _ _ (.inl (by simp)))) fun _ => bind (read _) fun _ => bind (raiseIf _ (.inl (by simp))) fun _ =>
      bind (ofExcept (ERaises.loadMetadata E _ _)) fun _ => pure _
  · exact bind (ofExcept (ERaises.loadMetadata E _ _)) fun _ => pure _

theorem FRaises.readOffsets (h : BloscpackHeader) : FRaises (Spec.ReadRaises E) (readOffsets h) := by
  unfold Bloscpack.readOffsets
  split
  · split
    · exact raise (.inl (by simp))
    · exact bind (raiseIf _ (.inl (by simp))) fun _ => bind (read _) fun _ => ofExcept (ERaises.decodeOffsets (.inl (by simp)) _ _)
  · exact pure _

theorem FRaises.readBeginning : FRaises (Spec.ReadRaises E) (readBeginning E) := by
  unfold Bloscpack.readBeginning
  refine bind ((readBloscpackHeader E).mono fun _ h => h.read) fun h => bind ?_ fun _ => bind (readOffsets E _) fun _ => pure _
  split
  · exact bind ((readMetadata E).mono fun _ h => h.read) fun _ => pure _
  · exact pure _

theorem FRaises.readCompressedChunk (impl : Hash) : FRaises (Spec.ReadRaises E) (readCompressedChunk impl) := by
  unfold Bloscpack.readCompressedChunk
  refine bind (read _) fun _ => bind (ofExcept (ERaises.bloscHeader _ (.inl (by simp)) (.inl (by simp)))) fun _ => bind (seekRel _) fun _ =>
    bind (read _) fun _ => ?_
  split
  · exact bind (read _) fun _ => pure _
  · exact pure _

theorem FRaises.next (h : BloscpackHeader) (impl : Hash) (i : Nat) : FRaises (Spec.ReadRaises E) ((compressedFPSource h impl).next i) :=
  bind (readCompressedChunk E impl) fun _ => pure _

theorem sinkPut_error {c : Bytes} {t t' : FP} {e : Err} (h : plainFPSinkPut E c t = (.error e, t')) : E.decompress c = .error e := by
  unfold plainFPSinkPut at h
  cases hd : E.decompress c with
  | error e' =>
    rw [Proc.bind_of_error (Proc.ofExcept_apply _ _ |>.trans (by rw [hd]))] at h
    cases h
    rfl
  | ok d =>
    rw [Proc.bind_of_ok (Proc.ofExcept_apply _ _ |>.trans (by rw [hd]))] at h
    cases h

theorem raises_loop (h : BloscpackHeader) (impl : Hash) : ∀ (n i : Nat) (s t : FP) (e : Err),
    (unpackLoop (compressedFPSource h impl) (plainFPSinkPut E) n i (s, t)).1 = .error e →
      Spec.ReadRaises E e ∨ e = .osError ∧ s.inMemory = false := by
  intro n
  induction n with
  | zero => intro i s t e he; cases he
  | succ n ih =>
    intro i s t e he
    replace he : ((Proc.onFst ((compressedFPSource h impl).next i) >>= fun cd =>
      Proc.ofExcept (checkDigest (compressedFPSource h impl).checksumImpl cd.1 cd.2) >>= fun _ => Proc.onSnd (plainFPSinkPut E cd.1) >>= fun _ =>
      unpackLoop (compressedFPSource h impl) (plainFPSinkPut E) n (i + 1)) (s, t)).1 = .error e := he
    obtain ⟨k1, k2⟩ := FRaises.next E h impl i s
    cases hn : (compressedFPSource h impl).next i s with
    | mk r s1 =>
    rw [hn] at k1 k2
    cases r with
    | error e1 =>
      rw [Proc.bind_of_error (s' := (s1, t)) (e := e1) (by rw [Proc.onFst_apply, hn])] at he
      cases he
      exact k2 _ rfl
    | ok cd =>
      rw [Proc.bind_of_ok (s' := (s1, t)) (a := cd) (by rw [Proc.onFst_apply, hn])] at he
      cases hd : checkDigest (compressedFPSource h impl).checksumImpl cd.1 cd.2 with
      | error e1 =>
        rw [Proc.bind_of_error (Proc.ofExcept_apply _ _ |>.trans (by rw [hd]))] at he
        cases he
        refine .inl (.inl ?_)
        unfold checkDigest at hd
        split at hd
        · cases hd
        · split at hd
          · cases hd; simp
          · cases hd
      | ok u =>
        rw [Proc.bind_of_ok (Proc.ofExcept_apply _ _ |>.trans (by rw [hd]))] at he
        cases hp : plainFPSinkPut E cd.1 t with
        | mk r2 t1 =>
        cases r2 with
        | error e2 =>
          rw [Proc.bind_of_error (s' := (s1, t1)) (e := e2) (by rw [Proc.onSnd_apply, hp])] at he
          cases he
          exact .inl (.inr (.inl ⟨_, sinkPut_error E hp⟩))
        | ok u2 =>
          rw [Proc.bind_of_ok (s' := (s1, t1)) (a := u2) (by rw [Proc.onSnd_apply, hp])] at he
          have := ih (i + 1) s1 t1 e he
          simp only at k1
          rw [k1] at this
          exact this

theorem raises_unpackFP (fp : FP) (e : Err) (h : (unpackFP E fp).1 = .error e) :
    Spec.ReadRaises E e ∨ e = .osError ∧ fp.inMemory = false := by
  unfold unpackFP at h
  obtain ⟨k1, k2⟩ := FRaises.readBeginning E fp
  cases hb : readBeginning E fp with
  | mk r s =>
  rw [hb] at h k1 k2
  cases r with
  | error e1 => cases h; exact k2 _ rfl
  | ok b =>
    obtain ⟨hd, md, mh, os⟩ := b
    simp only at h
    cases hi : hd.checksumImpl E with
    | error e1 =>
      rw [hi] at h
      cases h
      exact .inl (ERaises.checksumLookup (P := Spec.ReadRaises E) _ _ (.inl (by simp)) _ hi)
    | ok impl =>
      rw [hi] at h
      simp only at h
      cases hu : unpack (compressedFPSource hd impl) (plainFPSinkPut E) (s, { data := [] }) with
      | mk r2 st =>
      rw [hu] at h
      cases r2 with
      | ok u => cases h
      | error e2 =>
        cases h
        have := raises_loop E hd impl hd.nchunks.toNat 0 s { data := [] } e (by
          show (unpack (compressedFPSource hd impl) (plainFPSinkPut E) (s, { data := [] })).1 = _
          rw [hu])
        simp only at k1
        rw [k1] at this
        exact this

/-- C84: whatever bytes are given to it, unpacking in memory raises one of eight exceptions, or what `blosc.decompress`,
`zlib.decompress` or `json.loads` raise. -/
theorem C84_unpack_memory (x : Bytes) (e : Err) (h : unpackBytesFromBytes E x = .error e) :
    e ∈ [Err.valueError, .formatVersionMismatch, .indexError, .structError, .typeError, .checksumMismatch, .keyError, .overflowError] ∨
    (∃ c, E.decompress c = .error e) ∨ (∃ c, E.zdecompress c = .error e) ∨ ∃ t, E.loads t = .error e := by
  unfold unpackBytesFromBytes at h
  rcases raises_unpackFP E { data := x, inMemory := true } e (by
    revert h
    rcases unpackFP E ({ data := x, inMemory := true } : FP) with ⟨r, o⟩
    intro h
    cases r with
    | ok m => cases h
    | error e' => cases h; rfl) with h1 | ⟨-, h1⟩
  · exact h1
  · cases h1

/-- C84: for a file on disk, `OSError` comes in addition. -/
theorem C84_unpack_file (fs : FS) (name : String) (x : Bytes) (hx : fs.files name = some x) (e : Err)
    (h : unpackBytesFromFile E fs name = .error e) :
    e ∈ [Err.valueError, .formatVersionMismatch, .indexError, .structError, .typeError, .checksumMismatch, .keyError, .overflowError, .osError] ∨
    (∃ c, E.decompress c = .error e) ∨ (∃ c, E.zdecompress c = .error e) ∨ ∃ t, E.loads t = .error e := by
  rw [unpackBytesFromFile_eq E hx] at h
  rcases raises_unpackFP E { data := x } e (by
    unfold unpackFrom at h
    revert h
    rcases unpackFP E ({ data := x } : FP) with ⟨r, o⟩
    intro h
    cases r with
    | ok m => cases h
    | error e' => cases h; rfl) with (h1 | h1) | ⟨rfl, -⟩
  · left
    simp only [List.mem_cons, List.not_mem_nil, or_false] at h1 ⊢
    rcases h1 with h1 | h1 | h1 | h1 | h1 | h1 | h1 | h1 <;> simp [h1]
  · exact .inr h1
  · exact .inl (by simp)

end

/-- a file whose header is refused is refused -/
theorem unpack_header_error (E : Env μ) (x : Bytes) (e : Err) (h : BloscpackHeader.decode (x.take 32) = .error e) :
    unpackBytesFromBytes E x = .error e := by
  have hr : readBeginning E { data := x, inMemory := true } =
      (.error e, { data := x, pos := (x.take 32).length, inMemory := true }) := by
    unfold readBeginning readBloscpackHeader
    have hread : fpRead (BLOSCPACK_HEADER_LENGTH : Int) ({ data := x, inMemory := true } : FP) =
        (.ok (x.take 32), { data := x, pos := (x.take 32).length, inMemory := true }) := by
      have := fpRead_Z [] x [] 32 true
      simpa [Z, BLOSCPACK_HEADER_LENGTH] using this
    rw [Proc.bind_of_error (e := e) (s' := { data := x, pos := (x.take 32).length, inMemory := true }) (by
      rw [Proc.bind_of_ok hread, Proc.bind_of_error (Proc.ofExcept_apply _ _ |>.trans (by rw [h]))])]
  unfold unpackBytesFromBytes unpackFP
  rw [hr]

/-- C84: exactly what is raised for bytes that do not start with a bloscpack header: `IndexError` if only the number of the checksum is
unknown, or if the fields behind it are wrong as well; `ValueError` otherwise. -/
theorem C84_no_header (E : Env μ) (x : Bytes)
    (hx : ∀ v o m ck t c l n a, Spec.HeaderFieldsOK v t c l n a ck → x.take 32 ≠ Spec.headerBytes v o m ck t c l n a) :
    ((∃ v o c rest, x = [98, 108, 112, 107, v, o, c] ++ rest ∧ 25 ≤ rest.length ∧ o < 4 ∧ 9 ≤ c) →
      unpackBytesFromBytes E x = .error .indexError) ∧
    ((¬ ∃ v o c rest, x = [98, 108, 112, 107, v, o, c] ++ rest ∧ 25 ≤ rest.length ∧ o < 4 ∧ 9 ≤ c) →
      unpackBytesFromBytes E x = .error .valueError) := by
  have hd : ∀ h, BloscpackHeader.decode (x.take 32) ≠ .ok h := by
    intro h hh
    obtain ⟨hok, hb⟩ := (BloscpackHeader.decode_iff _ _).1 hh
    exact hx _ _ _ _ _ _ _ _ _ hok hb
  have he := BloscpackHeader.decode_error _ hd
  have hu := unpack_header_error E x
  constructor
  · rintro ⟨v, o, c, rest, rfl, h1, h2, h3⟩
    apply hu
    rw [he, if_pos]
    refine ⟨by simp; omega, rfl, ⟨o, rfl, h2⟩, ⟨c, rfl, h3⟩⟩
  · intro hn
    apply hu
    rw [he, if_neg]
    rintro ⟨h1, h2, ⟨o, h3, h4⟩, ⟨c, h5, h6⟩⟩
    apply hn
    match x, h1, h2, h3, h5 with
    | a0 :: a1 :: a2 :: a3 :: a4 :: a5 :: a6 :: rest, h1, h2, h3, h5 =>
      simp [slice, MAGIC] at h2
      obtain ⟨rfl, rfl, rfl, rfl⟩ := h2
      simp at h3 h5
      subst h3 h5
      exact ⟨a4, a5, a6, rest, rfl, by simp at h1; omega, h4, h6⟩

/-! ### appending -/

/-- the exceptions of appending, apart from `OSError` -/
def Spec.AppendRaises (E : Env μ) (e : Err) : Prop :=
  Spec.ReadRaises E e ∨ e ∈ [Err.runtimeError, .notEnoughSpace, .chunkingException] ∨ ∃ d a, E.compress d a = .error e

namespace FRaises
variable {α : Type}

theorem bind' {β : Type} {P : Err → Prop} {p : Proc FP α} {f : α → Proc FP β} (hp : FRaises P p)
    (hf : ∀ a, (∃ s s', p s = (.ok a, s')) → FRaises P (f a)) : FRaises P (p >>= f) := by
  intro fp
  obtain ⟨h1, h2⟩ := hp fp
  show (Proc.bind p f fp).2.inMemory = _ ∧ ∀ e, (Proc.bind p f fp).1 = _ → _
  unfold Proc.bind
  generalize hq : p fp = q at h1 h2
  obtain ⟨r, fp'⟩ := q
  cases r with
  | error e => exact ⟨h1, fun e' he => h2 e' (by cases he; rfl)⟩
  | ok a =>
    have h' := hf a ⟨fp, fp', hq⟩ fp'
    simp only at h1 ⊢
    rw [h1] at h'
    exact h'

theorem writeCompressedChunk {P : Err → Prop} (c d : Bytes) : FRaises P (writeCompressedChunk c d) := by
  unfold Bloscpack.writeCompressedChunk
  refine bind (write _) fun _ => ?_
  split
  · exact write _
  · exact pure _

end FRaises

theorem ERaises.pack {P : Err → Prop} (h : P .structError) (w : Nat) (v : Int) : ERaises P (packUnsigned w v) ∧ ERaises P (packSigned w v) := by
  unfold packUnsigned packSigned
  constructor <;> split <;> first | exact ok _ | exact error h

theorem ERaises.indexOf {P : Err → Prop} (l : List String) (x : String) (h : P .valueError) : ERaises P (indexOf l x) := by
  unfold Bloscpack.indexOf
  split
  · exact ok _
  · exact error h

theorem ERaises.headerEncode {P : Err → Prop} (h : BloscpackHeader) (h1 : P .valueError) (h2 : P .structError) : ERaises P h.encode := by
  unfold BloscpackHeader.encode encodeUInt8 encodeInt32 encodeInt64
  exact bind (pack h2 _ _).1 fun _ _ => bind (pack h2 _ _).1 fun _ _ => bind (indexOf _ _ h1) fun _ _ => bind (pack h2 _ _).1 fun _ _ =>
    bind (pack h2 _ _).1 fun _ _ => bind (pack h2 _ _).2 fun _ _ => bind (pack h2 _ _).2 fun _ _ => bind (pack h2 _ _).2 fun _ _ =>
    bind (pack h2 _ _).2 fun _ _ => ok _

theorem ERaises.encodeOffsets {P : Err → Prop} (h : P .structError) : ∀ os : List Int, ERaises P (encodeOffsets os)
  | [] => ok _
  | o :: os => by
    unfold Bloscpack.encodeOffsets encodeInt64
    exact bind (pack h _ _).2 fun _ _ => bind (encodeOffsets h os) fun _ _ => ok _

theorem ERaises.calculateNchunks {P : Err → Prop} (n c : Int) (h1 : P .valueError) (h2 : P .chunkingException) :
    ERaises P (calculateNchunks n (.int c)) := by
  unfold Bloscpack.calculateNchunks
  split
  · exact error h1
  · split
    · exact ok _
    · refine bind (x := ChunkSizeArg.value (.int c)) (ok (PyVal.int c)) fun v hv => ?_
      cases hv
      refine bind (checkRange _ _ _ h1) fun _ _ => ?_
      simp only
      generalize (if (if c > n then n else c) = n then ((1 : Int), n, n) else _) = r
      split
      · exact error h2
      · exact ok _

/-- whatever a procedure on sinks raises satisfies `P` -/
def SRaises {α : Type} (P : Err → Prop) (p : Proc FPSink α) : Prop :=
  ∀ s, (p s).2.fp.inMemory = s.fp.inMemory ∧ ∀ e, (p s).1 = .error e → P e

theorem SRaises.put {P : Err → Prop} (h : P .indexError) (i : Nat) (c : Bytes) : SRaises P (FPSink.put i c) := by
  intro s
  have hw : ∀ (d : Bytes) (fp : FP), ∃ fp', writeCompressedChunk c d fp = (.ok (), fp') ∧ fp'.inMemory = fp.inMemory := by
    intro d fp
    unfold writeCompressedChunk
    by_cases hd : d.length > 0
    · rw [if_pos hd]; exact ⟨_, rfl, rfl⟩
    · rw [if_neg hd]; exact ⟨_, rfl, rfl⟩
  obtain ⟨fp', h1, h2⟩ := hw (doChecksum s.impl c) s.fp
  unfold FPSink.put
  show ((FPSink.onFP _ >>= _) s).2.fp.inMemory = _ ∧ ∀ e, ((FPSink.onFP _ >>= _) s).1 = .error e → _
  rw [Proc.bind_of_ok (a := ()) (s' := { s with fp := fp' }) (by unfold FPSink.onFP; rw [h1])]
  by_cases ho : s.header.offsets = true
  · rw [if_pos ho]
    cases hs : setItem s.offset_storage i s.fp.tell with
    | error e =>
      rw [Proc.bind_of_error (Proc.ofExcept_apply _ _ |>.trans rfl)]
      refine ⟨h2, fun e' he => ?_⟩
      cases he
      unfold setItem at hs
      split at hs
      · cases hs
      · cases hs; exact h
    | ok os =>
      rw [Proc.bind_of_ok (Proc.ofExcept_apply _ _ |>.trans rfl)]
      exact ⟨h2, fun e' he => nomatch he⟩
  · rw [if_neg ho]
    exact ⟨h2, fun e' he => nomatch he⟩

theorem SRaises.appendLoop (E : Env μ) (a : BloscArgs) : ∀ (cs : List Bytes) (i : Nat), SRaises (Spec.AppendRaises E) (appendLoop E a i cs)
  | [], _ => fun _ => ⟨rfl, fun _ h => nomatch h⟩
  | c :: cs, i => by
    intro s
    show ((Proc.ofExcept (E.compress c a) >>= _) s).2.fp.inMemory = _ ∧ ∀ e, ((Proc.ofExcept (E.compress c a) >>= _) s).1 = .error e → _
    cases hc : E.compress c a with
    | error e =>
      rw [Proc.bind_of_error (Proc.ofExcept_apply _ _ |>.trans rfl)]
      exact ⟨rfl, fun e' he => by cases he; exact .inr (.inr ⟨_, _, hc⟩)⟩
    | ok comp =>
      rw [Proc.bind_of_ok (Proc.ofExcept_apply _ _ |>.trans rfl)]
      obtain ⟨p1, p2⟩ := SRaises.put (P := Spec.AppendRaises E) (.inl (.inl (by simp))) i comp s
      show ((FPSink.put i comp >>= fun _ => Bloscpack.appendLoop E a (i + 1) cs) s).2.fp.inMemory = _ ∧
        ∀ e, ((FPSink.put i comp >>= fun _ => Bloscpack.appendLoop E a (i + 1) cs) s).1 = .error e → _
      cases hp : FPSink.put i comp s with
      | mk r s1 =>
      rw [hp] at p1 p2
      cases r with
      | error e => rw [Proc.bind_of_error hp]; exact ⟨p1, p2⟩
      | ok u =>
        rw [Proc.bind_of_ok hp]
        have := SRaises.appendLoop E a cs (i + 1) s1
        simp only at p1
        rw [p1] at this
        exact this

theorem FRaises.withSink {α : Type} {P : Err → Prop} (h : BloscpackHeader) (impl : Hash) (st : List Int) {m : Proc FPSink α} (hm : SRaises P m) :
    FRaises P (withSink h impl st m) := by
  intro fp
  unfold Bloscpack.withSink
  obtain ⟨h1, h2⟩ := hm { fp := fp, header := h, impl := impl, offset_storage := st }
  generalize m { fp := fp, header := h, impl := impl, offset_storage := st } = q at h1 h2
  obtain ⟨r, s⟩ := q
  cases r with
  | ok a => exact ⟨h1, fun e he => nomatch he⟩
  | error e => exact ⟨h1, fun e' he => .inl (h2 e' (by cases he; rfl))⟩

theorem readBeginning_header {E : Env μ} {s s' : FP} {b : BloscpackHeader × Option μ × Option MetadataHeader × List Int}
    (h : readBeginning E s = (.ok b, s')) : b.1.OK := by
  unfold readBeginning at h
  obtain ⟨hd, s1, e1, g1⟩ := Proc.bind_ok_iff.1 h
  obtain ⟨mm, s2, -, g2⟩ := Proc.bind_ok_iff.1 g1
  obtain ⟨os, s3, -, g3⟩ := Proc.bind_ok_iff.1 g2
  cases g3
  unfold readBloscpackHeader at e1
  obtain ⟨raw, s4, -, k1⟩ := Proc.bind_ok_iff.1 e1
  obtain ⟨hd', s5, k2, k3⟩ := Proc.bind_ok_iff.1 k1
  obtain ⟨_, s6, -, k4⟩ := Proc.bind_ok_iff.1 k3
  cases k4
  rw [Proc.ofExcept_apply, Prod.mk.injEq] at k2
  exact ((BloscpackHeader.decode_iff _ _).1 k2.1).1

theorem FRaises.appendFrom (E : Env μ) (first) (source) (n : Int) (args : AppendArgs) :
    FRaises (Spec.AppendRaises E) (appendFrom E first source n args) := by
  have hr : ∀ e, Spec.ReadRaises E e → Spec.AppendRaises E e := fun e h => .inl h
  have hin : ∀ e, e ∈ [Err.valueError, .formatVersionMismatch, .indexError, .structError, .typeError, .checksumMismatch, .keyError, .overflowError] →
    Spec.AppendRaises E e := fun e h => .inl (.inl h)
  have hv : Spec.AppendRaises E .valueError := hin _ (by simp)
  have hst : Spec.AppendRaises E .structError := hin _ (by simp)
  have hcomp : ∀ d a, ERaises (Spec.AppendRaises E) (E.compress d a) := fun d a e he => .inr (.inr ⟨_, _, he⟩)
  unfold Bloscpack.appendFrom
  refine bind' ((readBeginning E).mono hr) fun b hb => ?_
  obtain ⟨s, s', hb⟩ := hb
  have hok := readBeginning_header hb
  refine bind (ofExcept (ERaises.checksumLookup _ _ (hin _ (by simp)))) fun impl => ?_
  refine bind (raiseIf _ (.inr (.inl (by simp)))) fun _ => ?_
  refine bind (ofExcept ?_) fun a => ?_
  · unfold AppendArgs.fill
    refine ERaises.bind ?_ fun _ _ => ERaises.bind ?_ fun _ _ => ERaises.ok _
    · split
      · rw [if_neg]
        · exact ERaises.ok _
        · intro h
          have := hok.2.2.1.1
          omega
      · exact ERaises.ok _
    · unfold checkArgs
      intro e he
      revert he
      simp only
      split
      · intro he; cases he; exact hv
      · intro he; cases he
  refine bind (ofExcept ?_) fun op => ?_
  · unfold offsetsPos
    split
    · exact ERaises.ok _
    · split
      · exact ERaises.error (hin _ (by simp))
      · exact ERaises.bind (ERaises.checksumLookup _ _ (hin _ (by simp))) fun _ _ => ERaises.ok _
  refine bind (ofExcept ?_) fun last => ?_
  · unfold lastOffset
    split
    · exact ERaises.ok _
    · exact ERaises.error (hin _ (by simp))
  refine bind (seek _ hv) fun _ => bind ((readCompressedChunk E impl).mono hr) fun r => ?_
  refine bind (ofExcept fun e he => .inl (.inr (.inl ⟨_, he⟩))) fun d => ?_
  simp only
  split
  · unfold squeezeIn
    exact bind (seek _ hv) fun _ => bind (ofExcept (hcomp _ _)) fun _ => bind (writeCompressedChunk _ _) fun _ =>
      bind (ofExcept (ERaises.headerEncode _ hv hst)) fun _ => bind (seek _ hv) fun _ => bind (write _) fun _ => pure _
  · unfold growBy
    exact bind (ofExcept (ERaises.calculateNchunks _ _ hv (.inr (.inl (by simp))))) fun c => bind (raiseIf _ (.inr (.inl (by simp)))) fun _ =>
      bind (seek _ hv) fun _ => bind (ofExcept (hcomp _ _)) fun _ => bind (writeCompressedChunk _ _) fun _ =>
      bind (withSink _ _ _ (SRaises.appendLoop E a _ _)) fun _ => bind (ofExcept (ERaises.headerEncode _ hv hst)) fun _ =>
      bind (seek _ hv) fun _ => bind (write _) fun _ => bind (seek _ hv) fun _ =>
      bind (bind (ofExcept (ERaises.encodeOffsets hst _)) fun _ => write _) fun _ => pure _

/-- C84: whatever the file holds that is appended to, and whatever is appended to it with whatever arguments, appending raises one of the
exceptions of reading, `RuntimeError` (no offsets), `NotEnoughSpace`, `ChunkingException`, or what `blosc.compress` raises; and
`ZeroDivisionError` if nothing is appended, and only then. -/
theorem C84_append (E : Env μ) (orig new : Bytes) (args : AppendArgs) (e : Err) (fp : FP) (h : appendFile E orig new args = (.error e, fp)) :
    (e ∈ [Err.valueError, .formatVersionMismatch, .indexError, .structError, .typeError, .checksumMismatch, .keyError, .overflowError, .osError] ∨
      (∃ c, E.decompress c = .error e) ∨ (∃ c, E.zdecompress c = .error e) ∨ (∃ t, E.loads t = .error e)) ∨
    (e ∈ [Err.runtimeError, .notEnoughSpace, .chunkingException] ∨ ∃ d a, E.compress d a = .error e) ∨
    (e = .zeroDivisionError ∧ new = []) := by
  unfold appendFile at h
  have hr := FRaises.appendFrom E (fun n => (({ data := new } : FP).read n).1)
    (fun b cs lc k => (plainFPSource (({ data := new } : FP).read b).2 cs lc k).items) new.length args { data := orig }
  obtain ⟨-, hr⟩ := hr
  replace hr : ∀ e, (appendFp E { data := new } new.length args { data := orig }).1 = .error e →
    Spec.AppendRaises E e ∨ e = .osError ∧ ({ data := orig } : FP).inMemory = false := hr
  generalize appendFp E { data := new } new.length args { data := orig } = q at h hr
  obtain ⟨r, s⟩ := q
  cases r with
  | ok k =>
    replace h : (if new.length = 0 then (.error .zeroDivisionError, s) else (.ok (), s) : Except Err Unit × FP) = (.error e, fp) := h
    by_cases h0 : new.length = 0
    · rw [if_pos h0] at h
      cases h
      exact .inr (.inr ⟨rfl, List.length_eq_zero_iff.1 h0⟩)
    · rw [if_neg h0] at h
      cases h
  | error e' =>
    cases h
    rcases hr _ rfl with ((h1 | h1) | h1) | ⟨rfl, -⟩
    · left; left
      simp only [List.mem_cons, List.not_mem_nil, or_false] at h1 ⊢
      rcases h1 with h1 | h1 | h1 | h1 | h1 | h1 | h1 | h1 <;> simp [h1]
    · exact .inl (.inr h1)
    · exact .inr (.inl h1)
    · exact .inl (.inl (by simp))

/-! ### rewriting the metadata -/

theorem ERaises.metaHeaderEncode {P : Err → Prop} (h : MetadataHeader) (h1 : P .valueError) (h2 : P .structError) : ERaises P h.encode := by
  unfold MetadataHeader.encode encodeUInt8 encodeUInt32
  exact bind (pack h2 _ _).1 fun _ _ => bind (indexOf _ _ h1) fun _ _ => bind (pack h2 _ _).1 fun _ _ => bind (indexOf _ _ h1) fun _ _ =>
    bind (pack h2 _ _).1 fun _ _ => bind (pack h2 _ _).1 fun _ _ => bind (pack h2 _ _).1 fun _ _ => bind (pack h2 _ _).1 fun _ _ =>
    bind (pack h2 _ _).1 fun _ _ => ok _

/-- the exceptions of rewriting the metadata, apart from `OSError` -/
def Spec.RewriteRaises (E : Env μ) (e : Err) : Prop :=
  Spec.HeadRaises E e ∨
  e ∈ [Err.noMetadataFound, .noChangeInMetadata, .noSuchSerializer, .noSuchChecksum, .noSuchCodec, .checksumLengthMismatch,
    .metadataSectionTooSmall] ∨
  (∃ m, E.dumps m = .error e) ∨ ∃ d l, E.zcompress d l = .error e

section
variable (E : Env μ)

theorem ERaises.recreateMetadata (old : MetadataHeader) (x : RewriteArgs) : ERaises (Spec.RewriteRaises E) (recreateMetadata E old x) := by
  have hk : Spec.RewriteRaises E .keyError := .inl (.inl (by simp))
  unfold Bloscpack.recreateMetadata
  refine bind ?_ fun m1 _ => bind ?_ fun m2 _ => bind ?_ fun m3 _ => ?_
  · split
    · exact ok _
    · refine bind ?_ fun _ _ => ok _
      unfold checkValidSerializer
      split
      · exact ok _
      · exact error (.inr (.inl (by simp)))
  · split
    · exact ok _
    · refine bind ?_ fun _ _ => bind (checksumLookup _ _ hk) fun _ _ => bind (checksumLookup _ _ hk) fun _ _ => ?_
      · unfold checkValidChecksum
        split
        · exact ok _
        · exact error (.inr (.inl (by simp)))
      · split
        · exact error (.inr (.inl (by simp)))
        · exact ok _
  · split
    · exact ok _
    · refine bind ?_ fun _ _ => ok _
      unfold checkValidCodec
      split
      · exact ok _
      · exact error (.inr (.inl (by simp)))
  · split
    · exact ok _
    · refine bind ?_ fun _ _ => ok _
      unfold Bloscpack.checkRange
      simp only
      split
      · exact ok _
      · exact error (.inl (.inl (by simp)))

theorem recreateMetadata_int {old : MetadataHeader} {x : RewriteArgs} {m : MetadataArgs} (h : recreateMetadata E old x = .ok m) :
    ∃ i, m.max_meta_size = .int i := by
  unfold recreateMetadata at h
  obtain ⟨m1, h1, h⟩ := Except.bind_ok_iff.1 h
  obtain ⟨m2, h2, h⟩ := Except.bind_ok_iff.1 h
  obtain ⟨m3, h3, h⟩ := Except.bind_ok_iff.1 h
  have e1 : m1.max_meta_size = .int old.max_meta_size := by
    split at h1
    · cases h1; rfl
    · obtain ⟨_, -, h1⟩ := Except.bind_ok_iff.1 h1
      cases h1; rfl
  have e2 : m2.max_meta_size = m1.max_meta_size := by
    split at h2
    · cases h2; rfl
    · obtain ⟨_, -, h2⟩ := Except.bind_ok_iff.1 h2
      obtain ⟨_, -, h2⟩ := Except.bind_ok_iff.1 h2
      obtain ⟨_, -, h2⟩ := Except.bind_ok_iff.1 h2
      split at h2
      · cases h2
      · cases h2; rfl
  have e3 : m3.max_meta_size = m2.max_meta_size := by
    split at h3
    · cases h3; rfl
    · obtain ⟨_, -, h3⟩ := Except.bind_ok_iff.1 h3
      cases h3; rfl
  have e4 : m.max_meta_size = m3.max_meta_size := by
    split at h
    · cases h; rfl
    · obtain ⟨_, -, h⟩ := Except.bind_ok_iff.1 h
      cases h; rfl
  exact ⟨_, by rw [e4, e3, e2, e1]⟩

theorem ERaises.metadataCheck (h : MetadataHeader) (ho : h.meta_options = createMetadataOptions) : ERaises (Spec.RewriteRaises E) h.check := by
  have hv : Spec.RewriteRaises E .valueError := .inl (.inl (by simp))
  have hs : ∀ b n, ERaises (Spec.RewriteRaises E) (Bloscpack.checkStr b n) := by
    intro b n
    unfold Bloscpack.checkStr
    split
    · exact error hv
    · exact ok _
  have hr : ∀ v a b, ERaises (Spec.RewriteRaises E) (Bloscpack.checkRange (.int v) a b) := by
    intro v a b
    unfold Bloscpack.checkRange
    simp only
    split
    · exact ok _
    · exact error hv
  unfold MetadataHeader.check
  refine bind (hs _ _) fun _ _ => bind ?_ fun _ _ => bind ?_ fun _ _ => bind ?_ fun _ _ => bind (hr _ _ _) fun _ _ => bind (hr _ _ _) fun _ _ =>
    bind (hr _ _ _) fun _ _ => bind (hr _ _ _) fun _ _ => hs _ _
  · rw [ho]
    exact checkOptions _ hv
  · unfold checkValidChecksum
    split
    · exact ok _
    · exact error (.inr (.inl (by simp)))
  · unfold checkValidCodec
    split
    · exact ok _
    · exact error (.inr (.inl (by simp)))

theorem ERaises.prepareMetadata (md : Option μ) (args : MetadataArgs) (hi : ∃ i, args.max_meta_size = .int i) :
    ERaises (Spec.RewriteRaises E) (prepareMetadata E md args) := by
  have hk : Spec.RewriteRaises E .keyError := .inl (.inl (by simp))
  have hv : Spec.RewriteRaises E .valueError := .inl (.inl (by simp))
  have hst : Spec.RewriteRaises E .structError := .inl (.inl (by simp))
  unfold Bloscpack.prepareMetadata
  refine bind ?_ fun _ _ => bind ?_ fun _ _ => bind (fun e he => .inr (.inr (.inl ⟨_, he⟩))) fun t _ => ?_
  · intro e he
    exact absurd he (by have : checkArgs metadataArgKeys metadataArgKeys = .ok () := by rfl
                        rw [this]; exact fun h => nomatch h)
  · unfold serializerLookup
    split
    · exact ok _
    · exact error hk
  · simp only
    refine bind ?_ fun r hr => ?_
    · split
      · refine bind ?_ fun _ _ => ?_
        · unfold codecCompress
          split
          · exact ok _
          · split
            · exact fun e he => .inr (.inr (.inr ⟨_, _, he⟩))
            · exact error hk
        · split <;> exact ok _
      · exact ok _
    · have hm : r.2.2.max_meta_size = args.max_meta_size := by
        split at hr
        · obtain ⟨_, -, hr⟩ := Except.bind_ok_iff.1 hr
          split at hr <;> cases hr <;> rfl
        · cases hr; rfl
      obtain ⟨body, cs, a⟩ := r
      simp only at hm ⊢
      refine bind ?_ fun mx _ => ?_
      · unfold MetadataArgs.effectiveMaxMetaSize
        obtain ⟨i, hi⟩ := hi
        rw [hm, hi]
        exact ok _
      · have tail : ERaises (Spec.RewriteRaises E) (do
            let h ← MetadataHeader.new
              { magic_format := a.magic_format, meta_options := createMetadataOptions, meta_checksum := a.meta_checksum,
                meta_codec := a.meta_codec, meta_level := a.meta_level, meta_size := t.length, max_meta_size := mx, meta_comp_size := cs,
                user_codec := [] }
            let header ← h.encode
            let (digest, digestSize) ← (if a.meta_checksum ≠ "None" then do
                let impl ← Bloscpack.checksumLookup E.hashlib a.meta_checksum
                return (impl.function body, impl.size)
              else return ([], 0) : Except Err (Bytes × Nat))
            return (⟨header, body, (mx - cs).toNat, digest, digestSize, a⟩ : MetaSection)) := by
          refine bind (bind (metadataCheck E _ rfl) fun _ _ => ok _) fun _ _ => bind (metaHeaderEncode _ hv hst) fun _ _ => bind ?_ fun _ _ => ok _
          split
          · exact bind (checksumLookup _ _ hk) fun _ _ => ok _
          · exact ok _
        by_cases h : cs > mx
        · simp only [if_pos h]
          exact error (.inr (.inl (by simp)))
        · simp only [if_neg h]
          exact tail

theorem FRaises.writeZeros {P : Err → Prop} : ∀ n, FRaises P (writeZeros n)
  | 0 => pure _
  | n + 1 => bind (write _) fun _ => FRaises.writeZeros n

theorem FRaises.rewriteMetadata (md : Option μ) (x : RewriteArgs) : FRaises (Spec.RewriteRaises E) (rewriteMetadata E md x) := by
  have hr : ∀ e, Spec.HeadRaises E e → Spec.RewriteRaises E e := fun e h => .inl h
  unfold Bloscpack.rewriteMetadata seekToMetadata rewriteMetadataFp
  refine bind (bind ((readBloscpackHeader E).mono hr) fun _ => bind (raiseIf _ (.inr (.inl (by simp)))) fun _ => tell) fun _ =>
    bind tell fun _ => bind ((readMetadata E).mono hr) fun old => bind (raiseIf _ (.inr (.inl (by simp)))) fun _ =>
    bind' (ofExcept (ERaises.recreateMetadata E _ x)) fun m hm => bind (seek _ (hr _ (.inl (by simp)))) fun _ => bind ?_ fun _ => pure _
  obtain ⟨s, s', hm⟩ := hm
  rw [Proc.ofExcept_apply, Prod.mk.injEq] at hm
  unfold writeMetadata
  refine bind (ofExcept (ERaises.prepareMetadata E md m (recreateMetadata_int E hm.1))) fun s => bind (write _) fun _ => bind (write _) fun _ =>
    bind (writeZeros _) fun _ => ?_
  split
  · exact bind (write _) fun _ => pure _
  · exact pure _

end

/-- C84: whatever the file holds whose metadata are to be rewritten, and whatever the new metadata and settings are, rewriting raises one of the
exceptions of reading the header and the metadata, one of the seven documented refusals, or what `json.dumps` or `zlib.compress` raises. -/
theorem C84_rewrite (E : Env μ) (fp fp' : FP) (md : Option μ) (x : RewriteArgs) (e : Err) (h : rewriteMetadata E md x fp = (.error e, fp')) :
    (e ∈ [Err.valueError, .formatVersionMismatch, .indexError, .structError, .typeError, .checksumMismatch, .keyError] ∨
      (e = .osError ∧ fp.inMemory = false) ∨ (∃ c, E.zdecompress c = .error e) ∨ (∃ t, E.loads t = .error e)) ∨
    e ∈ [Err.noMetadataFound, .noChangeInMetadata, .noSuchSerializer, .noSuchChecksum, .noSuchCodec, .checksumLengthMismatch,
      .metadataSectionTooSmall] ∨
    (∃ m, E.dumps m = .error e) ∨ ∃ d l, E.zcompress d l = .error e := by
  have := (FRaises.rewriteMetadata E md x fp).2 e (by rw [h])
  rcases this with ((h1 | h1) | h1) | h1
  · exact .inl (.inl h1)
  · exact .inl (.inr (.inr h1))
  · exact .inr h1
  · exact .inl (.inr (.inl h1))

/-- each of the exceptions does occur: a packed archive with one byte (once: both counts) changed, unpacked from memory, -/
example : (packBytesToBytes Toy.env [1, 2, 3] (.int 2) (some 5) {} { max_app_chunks := .int 1 } {}).toOption.map (fun p =>
    [p.set 0 77, p.set 4 77, p.set 6 77, p.set 16 77, p.take 16 ++ List.replicate 8 255 ++ List.replicate 8 0 ++ p.drop 32, p.set 64 77, p.set 32 77,
      p.set 31 16, p.set 164 77].map (fun x => unpackBytesFromBytes Toy.env x)) =
    some [.error .valueError, .error .formatVersionMismatch, .error .indexError, .error .structError, .error .typeError,
      .error .checksumMismatch, .error .keyError, .error .overflowError, .error .bloscError] := by
  decide +kernel

/-- and from a file on disk, where the changed byte makes the reader seek before the beginning -/
example : (packBytesToBytes Toy.env [1, 2, 3] (.int 2) (some 5) {} { max_app_chunks := .int 1 } {}).toOption.map (fun p =>
    let fs : FS := { files := fun _ => some (p.set 53 77) }
    ((unpackBytesFromFile Toy.env fs "f").toOption, match unpackBytesFromFile Toy.env fs "f" with | .error e => some e | .ok _ => none)) =
    some (none, some .osError) := by
  decide +kernel

/-- appending: no room for offsets left, no offsets, nothing to append -/
example : [(({} : BloscpackArgs), [7, 7, 7, (7 : UInt8)]), ({ max_app_chunks := .int 1, offsets := false }, [7]), ({}, [])].map (fun t =>
    (packBytesToBytes Toy.env [1, 2, 3] (.int 2) none {} { t.1 with max_app_chunks := .int 0 } {}).toOption.map (fun p =>
      match (appendFile Toy.env p t.2).1 with | .error e => some e | .ok _ => none)) =
    [some (some .notEnoughSpace), some (some .runtimeError), some (some .zeroDivisionError)] := by
  decide +kernel

/-- rewriting: the seven refusals -/
example : (packBytesToBytes Toy.env [1, 2, 3] (.int 2) (some 1) {} {} { max_meta_size := .int 4, meta_codec := "None" }).toOption.bind (fun p =>
    (packBytesToBytes Toy.env [1] (.int 2) none {} {} {}).toOption.map (fun q =>
    [(q, some 2, {}), (p, some 1, {}), (p, some 2, { magic_format := some [1] }), (p, some 2, { checksum := some "x" }),
      (p, some 2, { codec := some "x" }), (p, some 2, { checksum := some "md5" }), (p, some 9, { codec := some "None" })].map
      (fun (t : Bytes × Option Nat × RewriteArgs) =>
        match (rewriteMetadata Toy.env t.2.1 t.2.2 { data := t.1 }).1 with | .error e => some e | .ok _ => none))) =
    some ([.noMetadataFound, .noChangeInMetadata, .noSuchSerializer, .noSuchChecksum, .noSuchCodec, .checksumLengthMismatch,
      .metadataSectionTooSmall].map some) := by
  decide +kernel

end Bloscpack
