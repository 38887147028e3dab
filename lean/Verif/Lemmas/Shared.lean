import Verif.Model.Shared
import Verif.Lemmas.Reader
import Verif.Lemmas.Prim
/-
Reading a file that another process writes to.
-/
namespace Bloscpack
variable {μ α β : Type}

/-! ### a file nobody writes to -/

theorem bytesFrom_static (d : Bytes) (p n : Nat) : bytesFrom (fun i => d[i]?) p n = (d.drop p).take n := by
  induction n generalizing p with
  | zero => simp [bytesFrom]
  | succ n ih =>
    unfold bytesFrom
    by_cases hp : p < d.length
    · rw [List.getElem?_eq_getElem hp, List.drop_eq_getElem_cons hp, List.take_succ_cons]
      simp only [ih]
    · rw [List.getElem?_eq_none (by omega), List.drop_of_length_le (by omega)]
      rfl

/-- the same file, once as a file of our own -/
structure Alone (d : Bytes) (fp : FP) (s : Shared) : Prop where
  data : fp.data = d
  disk : fp.inMemory = false
  pos : s.pos = fp.pos
  view : s.view = fun _ i => d[i]?
  bound : d.length ≤ s.bound

/-- two procedures that do the same on it -/
def SameAlone (d : Bytes) (p : Proc FP α) (q : Proc Shared α) : Prop :=
  ∀ fp s, Alone d fp s → (p fp).1 = (q s).1 ∧ Alone d (p fp).2 (q s).2

namespace SameAlone
variable {d : Bytes}

theorem pure (a : α) : SameAlone d (Proc.pure a) (Proc.pure a) := fun _ _ h => ⟨rfl, h⟩
theorem raise (e : Err) : SameAlone d (Proc.raise e : Proc FP α) (Proc.raise e) := fun _ _ h => ⟨rfl, h⟩
theorem ofExcept (x : Except Err α) : SameAlone d (Proc.ofExcept x) (Proc.ofExcept x) := fun _ _ h => ⟨rfl, h⟩
theorem raiseIf (b : Prop) [Decidable b] (e : Err) : SameAlone d (Proc.raiseIf b e) (Proc.raiseIf b e) := by
  unfold Proc.raiseIf
  split
  · exact raise e
  · exact pure ()

theorem bind {p : Proc FP α} {q : Proc Shared α} {f : α → Proc FP β} {g : α → Proc Shared β} (hp : SameAlone d p q)
    (hf : ∀ a, SameAlone d (f a) (g a)) : SameAlone d (p >>= f) (q >>= g) := by
  intro fp s h
  have h1 := hp fp s h
  show (Proc.bind p f fp).1 = (Proc.bind q g s).1 ∧ Alone d (Proc.bind p f fp).2 (Proc.bind q g s).2
  unfold Proc.bind
  generalize p fp = x at h1
  generalize q s = y at h1
  obtain ⟨r, fp'⟩ := x
  obtain ⟨r', s'⟩ := y
  obtain ⟨rfl, h2⟩ : r = r' ∧ Alone d fp' s' := h1
  cases r with
  | error e => exact ⟨rfl, h2⟩
  | ok a => exact hf a fp' s' h2

theorem read (n : Int) : SameAlone d (fpRead n) (fpRead n) := by
  intro fp s h
  have hb : bytesFrom (s.view s.calls) s.pos (if n < 0 then s.bound else n.toNat) = (fp.read n).1 := by
    rw [h.view, bytesFrom_static, h.pos]
    unfold FP.read
    simp only [h.data]
    split
    · rw [List.take_of_length_le]
      have := h.bound
      simp; omega
    · rfl
  rw [fpRead_eq]
  show Except.ok (fp.read n).1 = (Shared.read n s).1 ∧ Alone d (fp.read n).2 (Shared.read n s).2
  unfold Shared.read
  simp only [hb]
  exact ⟨trivial, h.data, h.disk, by rw [h.pos]; rfl, h.view, h.bound⟩

theorem seekRel (n : Int) : SameAlone d (fpSeekRel n) (fpSeekRel n) := by
  intro fp s h
  rw [fpSeekRel_eq]
  unfold FP.seekRel
  show _ = (Shared.seekRel n s).1 ∧ Alone d _ (Shared.seekRel n s).2
  unfold Shared.seekRel
  rw [h.pos]
  by_cases hn : (fp.pos : Int) + n < 0
  · simp only [hn, h.disk, and_self, if_true]
    exact ⟨trivial, h⟩
  · simp only [hn, false_and, if_false]
    exact ⟨trivial, h.data, h.disk, rfl, h.view, h.bound⟩

theorem readMetadata (E : Env μ) : SameAlone d (Bloscpack.readMetadata E) (Bloscpack.readMetadata E) := by
  unfold Bloscpack.readMetadata
  refine bind (read _) fun _ => bind (ofExcept _) fun h => bind (read _) fun _ => bind (seekRel _) fun _ => ?_
  split
  · exact bind (ofExcept _) fun _ => bind (read _) fun _ => bind (raiseIf _ _) fun _ => bind (ofExcept _) fun _ => pure _
  · exact bind (ofExcept _) fun _ => pure _

theorem readOffsets (h : BloscpackHeader) : SameAlone d (Bloscpack.readOffsets h) (Bloscpack.readOffsets h) := by
  unfold Bloscpack.readOffsets
  split
  · split
    · exact raise _
    · exact bind (raiseIf _ _) fun _ => bind (read _) fun _ => ofExcept _
  · exact pure _

theorem readBeginning (E : Env μ) : SameAlone d (Bloscpack.readBeginning E) (Bloscpack.readBeginning E) := by
  unfold Bloscpack.readBeginning Bloscpack.readBloscpackHeader
  refine bind (bind (read _) fun _ => bind (ofExcept _) fun _ => bind (raiseIf _ _) fun _ => pure _) fun h => bind ?_ fun _ =>
    bind (readOffsets h) fun _ => pure _
  split
  · exact bind (readMetadata E) fun _ => pure _
  · exact pure _

theorem next (h : BloscpackHeader) (impl : Hash) (i : Nat) :
    SameAlone d ((compressedFPSource h impl).next i) ((compressedFPSource h impl).next i) := by
  unfold compressedFPSource readCompressedChunk
  refine bind (bind (read _) fun _ => bind (ofExcept _) fun _ => bind (seekRel _) fun _ => bind (read _) fun _ => ?_) fun _ => pure _
  split
  · exact bind (read _) fun _ => pure _
  · exact pure _

theorem loop {E : Env μ} (h : BloscpackHeader) (impl : Hash) (n i : Nat) (fp : FP) (s : Shared) (t : FP) (hs : Alone d fp s) :
    (unpackLoop (compressedFPSource h impl) (plainFPSinkPut E) n i (fp, t)).1 =
      (unpackLoop (compressedFPSource h impl) (plainFPSinkPut E) n i (s, t)).1 ∧
    (unpackLoop (compressedFPSource h impl) (plainFPSinkPut E) n i (fp, t)).2.2 =
      (unpackLoop (compressedFPSource h impl) (plainFPSinkPut E) n i (s, t)).2.2 := by
  induction n generalizing i fp s t with
  | zero => exact ⟨rfl, rfl⟩
  | succ n ih =>
    have h1 := next h impl i fp s hs
    show (Proc.bind (Proc.onFst ((compressedFPSource h impl).next i)) _ (fp, t)).1 =
      (Proc.bind (Proc.onFst ((compressedFPSource h impl).next i)) _ (s, t)).1 ∧ (Proc.bind _ _ (fp, t)).2.2 = (Proc.bind _ _ (s, t)).2.2
    unfold Proc.bind
    rw [Proc.onFst_apply, Proc.onFst_apply]
    generalize (compressedFPSource h impl).next i fp = x at h1
    generalize (compressedFPSource h impl).next i s = y at h1
    obtain ⟨r, fp'⟩ := x
    obtain ⟨r', s'⟩ := y
    obtain ⟨rfl, h2⟩ : r = r' ∧ Alone d fp' s' := h1
    cases r with
    | error e => exact ⟨rfl, rfl⟩
    | ok cd =>
      simp only
      show (Proc.bind (Proc.ofExcept (checkDigest impl cd.1 cd.2)) _ (fp', t)).1 = (Proc.bind (Proc.ofExcept (checkDigest impl cd.1 cd.2)) _ (s', t)).1 ∧
        (Proc.bind (Proc.ofExcept (checkDigest impl cd.1 cd.2)) _ (fp', t)).2.2 = (Proc.bind (Proc.ofExcept (checkDigest impl cd.1 cd.2)) _ (s', t)).2.2
      unfold Proc.bind Proc.ofExcept
      cases checkDigest impl cd.1 cd.2 with
      | error e => exact ⟨rfl, rfl⟩
      | ok u =>
        simp only
        show (Proc.bind (Proc.onSnd (plainFPSinkPut E cd.1)) _ (fp', t)).1 = (Proc.bind (Proc.onSnd (plainFPSinkPut E cd.1)) _ (s', t)).1 ∧
          (Proc.bind (Proc.onSnd (plainFPSinkPut E cd.1)) _ (fp', t)).2.2 = (Proc.bind (Proc.onSnd (plainFPSinkPut E cd.1)) _ (s', t)).2.2
        unfold Proc.bind
        rw [Proc.onSnd_apply, Proc.onSnd_apply]
        generalize plainFPSinkPut E cd.1 t = z
        obtain ⟨r, t'⟩ := z
        cases r with
        | error e => exact ⟨rfl, rfl⟩
        | ok u => exact ih (i + 1) fp' s' t' h2

end SameAlone

theorem unpackShared_alone (E : Env μ) (d : Bytes) (b : Nat) (hb : d.length ≤ b) :
    unpackShared E { view := fun _ i => d[i]?, bound := b } = unpackFrom E d := by
  have h0 : Alone d { data := d } { view := fun _ i => d[i]?, bound := b } := ⟨rfl, rfl, rfl, rfl, hb⟩
  have h1 := SameAlone.readBeginning E _ _ h0
  unfold unpackShared unpackFrom unpackFP
  generalize readBeginning E ({ data := d } : FP) = x at h1
  generalize readBeginning E ({ view := fun _ i => d[i]?, bound := b } : Shared) = y at h1
  obtain ⟨r, fp'⟩ := x
  obtain ⟨r', s'⟩ := y
  obtain ⟨rfl, h2⟩ : r = r' ∧ Alone d fp' s' := h1
  cases r with
  | error e => rfl
  | ok q =>
    obtain ⟨h, m, mh, os⟩ := q
    simp only
    cases h.checksumImpl E with
    | error e => rfl
    | ok impl =>
      obtain ⟨h3, h4⟩ := SameAlone.loop (E := E) h impl h.nchunks.toNat 0 fp' s' { data := [] } h2
      unfold unpack
      show (Except.map _ (unpackLoop (compressedFPSource h impl) (plainFPSinkPut E) h.nchunks.toNat 0 (s', _)).1, _) =
        (Except.map _ (unpackLoop (compressedFPSource h impl) (plainFPSinkPut E) h.nchunks.toNat 0 (fp', _)).1, _)
      rw [h3]
      exact congrArg _ (congrArg FP.data h4.symm)

/-! ### what is at a place, whenever one looks -/

/-- the `k`-th call finds `bs` at position `p` -/
def ShowsAt (v : Nat → Nat → Option UInt8) (k p : Nat) (bs : Bytes) : Prop := ∀ j, j < bs.length → v k (p + j) = bs[j]?

/-- every call finds `bs` at position `p` -/
def Shows (v : Nat → Nat → Option UInt8) (p : Nat) (bs : Bytes) : Prop := ∀ k, ShowsAt v k p bs

theorem ShowsAt.append {v : Nat → Nat → Option UInt8} {k p : Nat} {a b : Bytes} :
    ShowsAt v k p (a ++ b) ↔ ShowsAt v k p a ∧ ShowsAt v k (p + a.length) b := by
  constructor
  · intro h
    refine ⟨fun j hj => ?_, fun j hj => ?_⟩
    · rw [h j (by simp; omega), List.getElem?_append_left hj]
    · rw [Nat.add_assoc, h (a.length + j) (by simp; omega), List.getElem?_append_right (by omega)]
      congr 1; omega
  · rintro ⟨h1, h2⟩ j hj
    by_cases hja : j < a.length
    · rw [h1 j hja, List.getElem?_append_left hja]
    · rw [List.getElem?_append_right (by omega), ← h2 (j - a.length) (by simp at hj; omega)]
      congr 1; omega

theorem Shows.append {v : Nat → Nat → Option UInt8} {p : Nat} {a b : Bytes} :
    Shows v p (a ++ b) ↔ Shows v p a ∧ Shows v (p + a.length) b :=
  ⟨fun h => ⟨fun k => (ShowsAt.append.1 (h k)).1, fun k => (ShowsAt.append.1 (h k)).2⟩, fun h k => ShowsAt.append.2 ⟨h.1 k, h.2 k⟩⟩

theorem bytesFrom_shows {v : Nat → Nat → Option UInt8} {k : Nat} : ∀ {p : Nat} {bs : Bytes}, ShowsAt v k p bs →
    bytesFrom (v k) p bs.length = bs
  | _, [], _ => rfl
  | p, b :: bs, h => by
    have h0 : v k p = some b := h 0 (by simp)
    have h1 : ShowsAt v k (p + 1) bs := by
      intro j hj
      rw [Nat.add_assoc, Nat.add_comm 1 j, h (j + 1) (by simpa using hj)]
      rfl
    rw [List.length_cons, bytesFrom, h0]
    simp only [bytesFrom_shows h1]

theorem bytesFrom_length {v : Nat → Option UInt8} : ∀ {p n : Nat}, (∀ i, p ≤ i → i < p + n → (v i).isSome) → (bytesFrom v p n).length = n
  | _, 0, _ => rfl
  | p, n + 1, h => by
    obtain ⟨b, hb⟩ := Option.isSome_iff_exists.1 (h p (Nat.le_refl _) (by omega))
    rw [bytesFrom, hb]
    simp only [List.length_cons]
    rw [bytesFrom_length (fun i h1 h2 => h i (by omega) (by omega))]

section
variable {v : Nat → Nat → Option UInt8} {b k p : Nat}

/-- a shared file after `k` calls of `read`, at position `p` -/
abbrev At (v : Nat → Nat → Option UInt8) (b k p : Nat) : Shared := { view := v, bound := b, calls := k, pos := p }

theorem read_shows {bs : Bytes} (h : ShowsAt v k p bs) (n : Int) (hn : n = bs.length) :
    fpRead n (At v b k p) = (.ok bs, At v b (k + 1) (p + bs.length)) := by
  show Shared.read n _ = _
  subst hn
  unfold Shared.read
  have : ¬ ((bs.length : Int) < 0) := by omega
  simp only [this, if_false, Int.toNat_natCast, bytesFrom_shows h]

theorem read_some (n : Int) (hn : 0 ≤ n) (h : ∀ i, p ≤ i → i < p + n.toNat → (v k i).isSome) :
    ∃ bs : Bytes, bs.length = n.toNat ∧ fpRead n (At v b k p) = (.ok bs, At v b (k + 1) (p + n.toNat)) := by
  refine ⟨bytesFrom (v k) p n.toNat, bytesFrom_length h, ?_⟩
  show Shared.read n _ = _
  unfold Shared.read
  simp only [show ¬ n < 0 by omega, if_false, bytesFrom_length h]

theorem seekRel_at (n : Int) (q : Nat) (h : (p : Int) + n = q) : fpSeekRel n (At v b k p) = (.ok (), At v b k q) := by
  show Shared.seekRel n _ = _
  unfold Shared.seekRel
  simp only [h, show ¬ ((q : Int) < 0) by omega, if_false, Int.toNat_natCast]

theorem readHeader_shows {h : BloscpackHeader} (hok : h.OK) (hv : h.format_version = 3) (hs : ShowsAt v k p h.bytes) :
    readBloscpackHeader (At v b k p) = (.ok h, At v b (k + 1) (p + 32)) := by
  unfold readBloscpackHeader
  rw [Proc.bind_of_ok (read_shows hs _ (by rw [h.bytes_length]; rfl)),
    Proc.bind_of_ok (Proc.ofExcept_apply _ _ |>.trans (by rw [BloscpackHeader.decode_bytes hok])),
    Proc.bind_of_ok (Proc.raiseIf_neg (by simp [hv, FORMAT_VERSION]) _ _), h.bytes_length]
  rfl

theorem readMetadata_shows {E : Env μ} (L : E.Laws) {s : Section μ} (hv : s.Valid E) (hs : Shows v p (s.bytes E)) :
    ∃ k', readMetadata E (At v b k p) = (.ok (s.metadata, s.header), At v b k' (p + (s.bytes E).length)) := by
  obtain ⟨hl1, hl2, hl3⟩ := Section.lookup hv
  have h1 := hv.size
  have h2 := hv.fits
  have h3 := Hash.size_eq L hl2 s.body
  unfold Section.bytes at hs
  obtain ⟨s1, hs⟩ := Shows.append.1 hs
  obtain ⟨s2, hs⟩ := Shows.append.1 hs
  obtain ⟨-, s3⟩ := Shows.append.1 hs
  unfold readMetadata
  rw [Proc.bind_of_ok (read_shows (s1 _) METADATA_HEADER_LENGTH (by rw [MetadataHeader.bytes_length]; rfl)),
    Proc.bind_of_ok (Proc.ofExcept_apply _ _ |>.trans (by rw [Section.decode_header hv])),
    Proc.bind_of_ok (read_shows (s2 _) _ h1),
    Proc.bind_of_ok (seekRel_at _ (p + s.header.bytes.length + s.body.length + s.prealloc) (by
      unfold Section.prealloc; omega))]
  by_cases hn : s.header.meta_checksum ≠ "None"
  · have s3' : Shows v (p + s.header.bytes.length + s.body.length + s.prealloc) ((s.impl E).function s.body) := by simpa using s3
    rw [if_pos hn, Proc.bind_of_ok (Proc.ofExcept_apply _ _ |>.trans (by rw [hl1])),
      Proc.bind_of_ok (read_shows (s3' _) _ (by rw [h3])),
      Proc.bind_of_ok (Proc.raiseIf_neg (by simp) _ _),
      Proc.bind_of_ok (Proc.ofExcept_apply _ _ |>.trans (by rw [Section.loads hv]))]
    refine ⟨k + 1 + 1 + 1, ?_⟩
    show (_, _) = _
    simp only [Section.bytes, List.length_append, List.length_replicate, Nat.add_assoc]
  · rw [if_neg hn, Proc.bind_of_ok (Proc.ofExcept_apply _ _ |>.trans (by rw [Section.loads hv]))]
    have hz : (s.impl E).function s.body = [] := by
      apply function_none hl2
      rw [Hash.size_zero hl2, hl3]
      exact Decidable.not_not.1 hn
    refine ⟨k + 1 + 1, ?_⟩
    show (_, _) = _
    simp only [Section.bytes, hz, List.append_nil, List.length_append, List.length_replicate, Nat.add_assoc]

theorem readOffsets_some {h : BloscpackHeader} (hn : 0 ≤ h.nchunks) (hm : 0 ≤ h.max_app_chunks)
    (hb : offsetsLen h < 2 ^ 63) (hs : ∀ k i, p ≤ i → i < p + offsetsLen h → (v k i).isSome) :
    ∃ k' os, readOffsets h (At v b k p) = (.ok os, At v b k' (p + offsetsLen h)) := by
  unfold readOffsets
  unfold offsetsLen at hs hb ⊢
  cases ho : h.offsets with
  | false => exact ⟨k, [], rfl⟩
  | true =>
    rw [ho] at hs hb
    simp only [if_true] at hs hb ⊢
    have ht : h.totalProspectiveChunks = some (h.nchunks + h.max_app_chunks) := if_pos hn
    have e8 : (8 * (h.nchunks + h.max_app_chunks)).toNat = 8 * (h.nchunks + h.max_app_chunks).toNat := by omega
    obtain ⟨raw, hr, h1⟩ := read_some (v := v) (b := b) (k := k) (p := p) (8 * (h.nchunks + h.max_app_chunks)) (by omega)
      (by rw [e8]; exact hs k)
    obtain ⟨os, h2, -⟩ := decodeOffsets_ok h.nchunks.toNat raw (by omega)
    refine ⟨k + 1, os, ?_⟩
    rw [ht]
    simp only
    rw [Proc.bind_of_ok (Proc.raiseIf_neg (by omega) _ _), Proc.bind_of_ok h1, e8]
    simp [h2]

theorem readBeginning_shows {E : Env μ} (L : E.Laws) {F : File μ} (hv : F.Pre E) (h0 : ShowsAt v 0 0 F.header.bytes)
    (h1 : Shows v 32 (F.secBytes E))
    (h2 : ∀ k i, 32 + (F.secBytes E).length ≤ i → i < 32 + (F.secBytes E).length + F.offsets.length → (v k i).isSome) :
    ∃ k' os, readBeginning E (At v b 0 0) = (.ok (F.header, F.metadata, F.sec.map (·.header), os), At v b k' (F.front E).length) := by
  have hn : 0 ≤ F.header.nchunks := by have := hv.nchunks_le; omega
  have hm : 0 ≤ F.header.max_app_chunks := hv.ok.2.2.2.2.2.2.1.1
  have hfl : (F.front E).length = 32 + (F.secBytes E).length + offsetsLen F.header := by
    simp [File.front, BloscpackHeader.bytes_length, hv.offsets_len, Nat.add_assoc]
  rw [hv.offsets_len] at h2
  unfold readBeginning
  rw [Proc.bind_of_ok (readHeader_shows hv.ok hv.version h0), hfl]
  have hflag := hv.meta_flag
  cases hs : F.sec with
  | none =>
    rw [hs] at hflag
    have hb : F.secBytes E = [] := by simp [File.secBytes, hs]
    have hf2 : F.header.metadata = false := by simpa using hflag
    rw [hb] at h2 ⊢
    obtain ⟨k', os, h3⟩ := readOffsets_some (v := v) (b := b) (k := 1) (p := 32) hn hm hv.offsets_small h2
    refine ⟨k', os, ?_⟩
    simp only [hf2]
    show ((Proc.pure (none, none) : Proc Shared (Option μ × Option MetadataHeader)) >>= _) (At v b 1 32) = _
    rw [Proc.bind_of_ok (Proc.pure_apply _ _), Proc.bind_of_ok h3]
    simp [File.metadata, hs]
  | some s =>
    rw [hs] at hflag
    have hb : F.secBytes E = s.bytes E := by simp [File.secBytes, hs]
    have hf2 : F.header.metadata = true := by simpa using hflag
    rw [hb] at h1 h2 ⊢
    obtain ⟨k1, h3⟩ := readMetadata_shows (b := b) (k := 1) L (hv.sec_ok s hs) h1
    obtain ⟨k', os, h4⟩ := readOffsets_some (v := v) (b := b) (k := k1) hn hm hv.offsets_small h2
    refine ⟨k', os, ?_⟩
    simp only [hf2, if_true]
    rw [Proc.bind_of_ok (a := (s.metadata, some s.header)) (s' := At v b k1 (32 + (s.bytes E).length))
      (by rw [Proc.bind_of_ok h3]; rfl), Proc.bind_of_ok h4]
    simp [File.metadata, hs]

theorem readChunk_shows (impl : Hash) {c D : Bytes} (hc : Framed c) (hD : D.length = impl.size) (hs : Shows v p (c ++ D)) :
    ∃ k' bh, readCompressedChunk impl (At v b k p) =
      (.ok (c, bh, if impl.size > 0 then some D else none), At v b k' (p + (c ++ D).length)) := by
  obtain ⟨hc1, hc2⟩ := hc
  obtain ⟨s1, s2⟩ := Shows.append.1 hs
  obtain ⟨bh, h1, h2⟩ := decodeBloscHeader_ctbytes (b := c.take 16) (by simp; omega)
  have hsl : slice (c.take 16) 12 16 = slice c 12 16 := by
    conv => rhs; rw [← List.take_append_drop 16 c]
    rw [slice_append_left]; simp; omega
  rw [hsl, hc2] at h2
  have s0 : ShowsAt v k p (c.take 16) := by
    have := s1 k
    rw [← List.take_append_drop 16 c] at this
    exact (ShowsAt.append.1 this).1
  have hl : (c.take 16).length = 16 := by simp; omega
  unfold readCompressedChunk
  rw [Proc.bind_of_ok (read_shows s0 _ (by rw [hl]; rfl)), Proc.bind_of_ok (Proc.ofExcept_apply _ _ |>.trans (by rw [h1])),
    Proc.bind_of_ok (seekRel_at _ p (by rw [hl]; unfold BLOSC_HEADER_LENGTH; omega)),
    Proc.bind_of_ok (read_shows (s1 _) _ h2)]
  by_cases hsz : impl.size > 0
  · simp only [if_pos hsz]
    rw [Proc.bind_of_ok (read_shows (s2 _) _ (by rw [hD]))]
    exact ⟨_, bh, by rw [List.length_append, ← Nat.add_assoc]; rfl⟩
  · simp only [if_neg hsz]
    have : D = [] := List.eq_nil_of_length_eq_zero (by omega)
    subst this
    exact ⟨_, bh, by simp; rfl⟩

/-- one round of the unpack loop over a well-formed chunk -/
theorem unpackLoop_step_shows {E : Env μ} (L : E.Laws) {h : BloscpackHeader} {impl : Hash} (hi : impl ∈ checksums E.hashlib)
    {c d O : Bytes} {lo} (hc : E.decompress c = .ok d) (hs : Shows v p (c ++ impl.function c)) (fuel i : Nat) :
    ∃ k' lo', unpackLoop (compressedFPSource h impl) (plainFPSinkPut E) (fuel + 1) i (At v b k p, Z O [] lo) =
      unpackLoop (compressedFPSource h impl) (plainFPSinkPut E) fuel (i + 1)
        (At v b k' (p + (c ++ impl.function c).length), Z (O ++ d) [] lo') := by
  obtain ⟨k', bh, hr⟩ := readChunk_shows (b := b) (k := k) impl (framed_of_decompress L hc) (Hash.size_eq L hi c) hs
  refine ⟨k', lo ++ [(O.length, d)], ?_⟩
  have hn : (compressedFPSource h impl).next i (At v b k p) =
      (.ok (c, readDigest impl c), At v b k' (p + (c ++ impl.function c).length)) := by
    show (readCompressedChunk impl >>= fun r => Proc.pure (r.1, r.2.2)) _ = _
    rw [Proc.bind_of_ok hr]; rfl
  have hp : plainFPSinkPut E c (Z O [] lo) = (.ok (), Z (O ++ d) [] (lo ++ [(O.length, d)])) := by
    unfold plainFPSinkPut
    rw [Proc.bind_of_ok (Proc.ofExcept_apply _ _ |>.trans (by rw [hc])), fpWrite_Z]
    simp
  show (Proc.onFst ((compressedFPSource h impl).next i) >>= _) _ = _
  rw [Proc.bind_of_ok (a := (c, readDigest impl c)) (s' := (At v b k' (p + (c ++ impl.function c).length), Z O [] lo))
    (by rw [Proc.onFst_apply, hn])]
  have hi' : (compressedFPSource (σ := Shared) h impl).checksumImpl = impl := rfl
  rw [hi', Proc.bind_of_ok (Proc.ofExcept_apply _ _ |>.trans (by rw [checkDigest_ok])),
    Proc.bind_of_ok (a := ()) (s' := (At v b k' (p + (c ++ impl.function c).length), Z (O ++ d) [] (lo ++ [(O.length, d)])))
    (by rw [Proc.onSnd_apply, hp])]

/-- the unpack loop over well-formed chunks -/
theorem unpackLoop_shows {E : Env μ} (L : E.Laws) {h : BloscpackHeader} {impl : Hash} (hi : impl ∈ checksums E.hashlib)
    (chs : List (Bytes × Bytes)) (hch : ∀ q ∈ chs, E.decompress q.1 = .ok q.2) {k p : Nat} {O : Bytes} {lo}
    (hs : Shows v p (Spec.records impl.function (chs.map (·.1)))) (fuel i : Nat) :
    ∃ k' lo', unpackLoop (compressedFPSource h impl) (plainFPSinkPut E) (chs.length + fuel) i (At v b k p, Z O [] lo) =
      unpackLoop (compressedFPSource h impl) (plainFPSinkPut E) fuel (i + chs.length)
        (At v b k' (p + (Spec.records impl.function (chs.map (·.1))).length), Z (O ++ (chs.map (·.2)).flatten) [] lo') := by
  induction chs generalizing k p O lo i with
  | nil => exact ⟨k, lo, by simp⟩
  | cons q qs ih =>
    rw [List.map_cons, records_cons] at hs
    obtain ⟨s1, s2⟩ := Shows.append.1 hs
    obtain ⟨k1, lo1, h1⟩ := unpackLoop_step_shows (b := b) (k := k) (O := O) (lo := lo) L (h := h) hi (hch q List.mem_cons_self) s1
      (qs.length + fuel) i
    obtain ⟨k2, lo2, h2⟩ := ih (fun r hr => hch r (List.mem_cons_of_mem _ hr)) (k := k1) (O := O ++ q.2) (lo := lo1) s2 (i + 1)
    refine ⟨k2, lo2, ?_⟩
    have e1 : (q :: qs).length + fuel = qs.length + fuel + 1 := by simp; omega
    have e2 : i + (q :: qs).length = i + 1 + qs.length := by simp; omega
    rw [e1, e2, List.map_cons, List.map_cons, records_cons, h1, h2]
    simp [Nat.add_assoc]

/-- unpacking a shared file once its beginning has been read, if the first chunks are there whenever one looks -/
theorem unpackShared_begun {E : Env μ} (L : E.Laws) {F : File μ} (hv : F.Pre E) {b k : Nat} {m : Option μ} {mh : Option MetadataHeader}
    {os : List Int} (h4 : readBeginning E (At v b 0 0) = (.ok (F.header, m, mh, os), At v b k (F.front E).length))
    (h3 : Shows v (F.front E).length (F.body E)) :
    ∃ k p lo, unpackShared E { view := v, bound := b } =
      (let r := unpackLoop (compressedFPSource F.header (F.impl E)) (plainFPSinkPut E)
        (F.header.nchunks.toNat - F.chunks.length) F.chunks.length (At v b k p, Z F.data [] lo)
       (r.1.map (fun _ => m), r.2.2.data)) := by
  obtain ⟨hl1, hl2, -⟩ := File.lookup hv
  have hn : (compressedFPSource (σ := Shared) F.header (F.impl E)).nchunks.toNat =
      F.chunks.length + (F.header.nchunks.toNat - F.chunks.length) := by
    show F.header.nchunks.toNat = _
    have := hv.nchunks_le; omega
  obtain ⟨k', lo, h5⟩ := unpackLoop_shows (b := b) (k := k) (O := []) (lo := []) L (h := F.header) hl2 F.chunks hv.chunks_ok h3
    (F.header.nchunks.toNat - F.chunks.length) 0
  refine ⟨k', (F.front E).length + (F.body E).length, lo, ?_⟩
  unfold unpackShared unpackFP
  rw [h4]
  simp only [hl1]
  have ho : ({ data := [] } : FP) = Z [] [] [] := rfl
  unfold unpack
  rw [hn, ho, h5]
  simp [File.data, File.body]

/-- unpacking a shared file whose beginning and first chunks are there whenever one looks comes to what follows them with these chunks in
the output -/
theorem unpackShared_pre {E : Env μ} (L : E.Laws) {F : File μ} (hv : F.Pre E) (h0 : ShowsAt v 0 0 F.header.bytes)
    (h1 : Shows v 32 (F.secBytes E))
    (h2 : ∀ k i, 32 + (F.secBytes E).length ≤ i → i < 32 + (F.secBytes E).length + F.offsets.length → (v k i).isSome)
    (h3 : Shows v (F.front E).length (F.body E)) (b : Nat) :
    ∃ k p lo, unpackShared E { view := v, bound := b } =
      (let r := unpackLoop (compressedFPSource F.header (F.impl E)) (plainFPSinkPut E)
        (F.header.nchunks.toNat - F.chunks.length) F.chunks.length (At v b k p, Z F.data [] lo)
       (r.1.map (fun _ => F.metadata), r.2.2.data)) := by
  obtain ⟨k, os, h4⟩ := readBeginning_shows (b := b) L hv h0 h1 h2
  exact unpackShared_begun L hv h4 h3

/-- a last round of the unpack loop, whatever it reads -/
theorem unpackLoop_last {σ : Type} {E : Env μ} (src : CompressedSource σ) (i : Nat) (s : σ) (O : Bytes) (lo) :
    (∃ e s', unpackLoop src (plainFPSinkPut E) 1 i (s, Z O [] lo) = (.error e, (s', Z O [] lo))) ∨
      ∃ x s' lo', unpackLoop src (plainFPSinkPut E) 1 i (s, Z O [] lo) = (.ok (), (s', Z (O ++ x) [] lo')) := by
  show (∃ e s', Proc.bind (Proc.onFst (src.next i)) _ (s, Z O [] lo) = _) ∨
    ∃ x s' lo', Proc.bind (Proc.onFst (src.next i)) _ (s, Z O [] lo) = _
  unfold Proc.bind
  rw [Proc.onFst_apply]
  generalize src.next i s = x
  obtain ⟨r, s'⟩ := x
  cases r with
  | error e => exact .inl ⟨e, s', rfl⟩
  | ok cd =>
    simp only
    show (∃ e s'', Proc.bind (Proc.ofExcept (checkDigest src.checksumImpl cd.1 cd.2)) _ (s', Z O [] lo) = _) ∨
      ∃ x s'' lo', Proc.bind (Proc.ofExcept (checkDigest src.checksumImpl cd.1 cd.2)) _ (s', Z O [] lo) = _
    unfold Proc.bind Proc.ofExcept
    cases checkDigest src.checksumImpl cd.1 cd.2 with
    | error e => exact .inl ⟨e, s', rfl⟩
    | ok u =>
      simp only
      cases hd : E.decompress cd.1 with
      | error e =>
        left
        refine ⟨e, s', ?_⟩
        show Proc.bind (Proc.onSnd (plainFPSinkPut E cd.1)) _ (s', Z O [] lo) = _
        unfold Proc.bind
        rw [Proc.onSnd_apply]
        unfold plainFPSinkPut
        rw [Proc.bind_of_error (Proc.ofExcept_apply _ _ |>.trans (by rw [hd]))]
      | ok x =>
        right
        have hp : plainFPSinkPut E cd.1 (Z O [] lo) = (.ok (), Z (O ++ x) [] (lo ++ [(O.length, x)])) := by
          unfold plainFPSinkPut
          rw [Proc.bind_of_ok (Proc.ofExcept_apply _ _ |>.trans (by rw [hd])), fpWrite_Z]
          simp
        refine ⟨x, s', lo ++ [(O.length, x)], ?_⟩
        show Proc.bind (Proc.onSnd (plainFPSinkPut E cd.1)) _ (s', Z O [] lo) = _
        unfold Proc.bind
        rw [Proc.onSnd_apply, hp]
        rfl

end

end Bloscpack
