import Verif.Props.Archive
import Verif.Spec.Verified
import Verif.Examples.Toy

/-! C91: only what its digest confirms is handed to blosc, zlib and json. -/
namespace Bloscpack
variable {μ : Type}

/-- the two runs do the same -/
theorem Proc.bind_congr' {σ α β : Type} {p p' : Proc σ α} {f f' : α → Proc σ β} {s : σ} (h : p s = p' s)
    (hf : ∀ a s', p s = (.ok a, s') → f a s' = f' a s') : (p >>= f) s = (p' >>= f') s := by
  cases hp : p s with
  | mk r s' =>
  cases r with
  | error e => rw [Proc.bind_of_error hp, Proc.bind_of_error (h ▸ hp)]
  | ok a => rw [Proc.bind_of_ok hp, Proc.bind_of_ok (h ▸ hp)]; exact hf a s' hp

section
variable (E E' : Env μ) (x : Bytes)

/-- the libraries differ only in what blosc, zlib and json make of bytes that come out of a file, -/
def Spec.SameButReading : Prop :=
  E'.compress = E.compress ∧ E'.cnames = E.cnames ∧ E'.hashlib = E.hashlib ∧ E'.zcompress = E.zcompress ∧ E'.dumps = E.dumps ∧
    E'.metaEq = E.metaEq

/-- and not even there as far as the verified bytes of `x` are concerned -/
def Spec.SameOnVerified : Prop :=
  (∀ c, Spec.VerifiedChunk E x c → E'.decompress c = E.decompress c) ∧
  (∀ body, Spec.VerifiedBody E x body → E'.zdecompress body = E.zdecompress body ∧ E'.loads body = E.loads body ∧
    ∀ raw, E.zdecompress body = .ok raw → E'.loads raw = E.loads raw)

variable {E E' x}

theorem loadMetadata_same (hv : Spec.SameOnVerified E E' x) (h : MetadataHeader) (body : Bytes) (hb : Spec.VerifiedBody E x body) :
    loadMetadata E h body = loadMetadata E' h body := by
  obtain ⟨h1, h2, h3⟩ := hv.2 body hb
  unfold loadMetadata codecDecompress
  by_cases hc : h.meta_codec ≠ "None"
  · simp only [if_pos hc, if_neg hc]
    split
    · rw [h1]
      cases hz : E.zdecompress body with
      | error e => rfl
      | ok raw => simp only [Except.ok_bind', h3 raw hz]
    · rfl
  · simp only [if_neg hc, Except.ok_bind', h2]

theorem metaTail_same (hs : Spec.SameButReading E E') (h : MetadataHeader) (body : Bytes) (fp : FP)
    (key : slice fp.data fp.pos (fp.pos + Spec.digestSize h.meta_checksum) = Spec.digest E h.meta_checksum body →
      loadMetadata E h body = loadMetadata E' h body) : metaTail E h body fp = metaTail E' h body fp := by
  unfold metaTail
  by_cases hn : h.meta_checksum = "None"
  · rw [if_neg (by simp [hn]), if_neg (by simp [hn]), key]
    rw [hn, show Spec.digestSize "None" = 0 by decide, show Spec.digest E "None" _ = [] by simp [Spec.digest]]
    simp [slice]
  · rw [if_pos (by simpa using hn), if_pos (by simpa using hn), hs.2.2.1]
    refine Proc.bind_congr' rfl fun impl s4 e4 => ?_
    rw [Proc.ofExcept_apply, Prod.mk.injEq] at e4
    obtain ⟨hi, rfl⟩ := e4
    obtain ⟨hd1, hd2⟩ := digest_eq hi body
    refine Proc.bind_congr' rfl fun expected s5 e5 => ?_
    rw [fpRead_at] at e5
    cases e5
    refine Proc.bind_congr' rfl fun _ s6 e6 => ?_
    have : impl.function body = slice fp.data fp.pos (fp.pos + impl.size) := by
      apply Classical.byContradiction
      intro hne
      rw [Proc.raiseIf_pos hne] at e6
      cases e6
    rw [key]
    rw [← hd1, ← hd2, this]

theorem readMetadata_same (L : E.Laws) (hs : Spec.SameButReading E E') (hv : Spec.SameOnVerified E E' x) (fp : FP) (hd : fp.data = x)
    (hp : fp.pos = 32) : readMetadata E fp = readMetadata E' fp := by
  have hread : fpRead (METADATA_HEADER_LENGTH : Int) fp = _ := fpRead_at fp 32
  rw [readMetadata_eq, readMetadata_eq, Proc.bind_of_ok hread, Proc.bind_of_ok hread]
  refine Proc.bind_congr' rfl fun h0 s1 e1 => ?_
  rw [Proc.ofExcept_apply, Prod.mk.injEq] at e1
  obtain ⟨hdec, rfl⟩ := e1
  obtain ⟨m, u, i, j, k, l, hm8, hu8, hm, -, -, hu, -, -, hok, hbytes⟩ := C79_meaning _ _ hdec
  have hlen32 := (MetadataHeader.decode_ok hdec).2
  have hcomp : fpRead h0.meta_comp_size = fpRead (h0.meta_comp_size.toNat : Nat) := by
    have := hok.2.2.2.2.2.2.2.1.1
    rw [Int.toNat_of_nonneg this]
  simp only [hlen32, hcomp]
  refine Proc.bind_congr' rfl fun body s2 e2 => ?_
  rw [fpRead_at] at e2
  cases e2
  refine Proc.bind_congr' rfl fun _ s3 e3 => ?_
  obtain ⟨hseek, rfl⟩ := (fpSeekRel_at_iff _ _ _).1 e3
  refine metaTail_same hs _ _ _ fun hdig => ?_
  simp only at hdig ⊢
  refine loadMetadata_same hv _ _ ⟨m, u, h0.meta_options, h0.meta_checksum, h0.meta_codec, h0.meta_level, h0.meta_size, h0.max_meta_size,
    h0.meta_comp_size, _, ⟨by omega, hok.2.1, hok.2.2.1, hok.2.2.2.1, hok.2.2.2.2.1, hok.2.2.2.2.2.1, hok.2.2.2.2.2.2.1, hok.2.2.2.2.2.2.2.1,
      by omega⟩, ?_, ?_, rfl, ?_⟩
  · rw [← hd, ← hbytes, hp]
  · rw [← hd, hp]
  · rw [← hd, ← hdig, hp]
    congr 2 <;> omega

theorem readHeader_at {x : Bytes} {b : Bool} {h : BloscpackHeader} {s : FP}
    (e : readBloscpackHeader ({ data := x, inMemory := b } : FP) = (.ok h, s)) :
    h.OK ∧ h.format_version = 3 ∧ x.take 32 = h.bytes ∧ s = { data := x, pos := 32, inMemory := b } := by
  have hread : fpRead (BLOSCPACK_HEADER_LENGTH : Int) ({ data := x, inMemory := b } : FP) = _ := fpRead_at _ 32
  simp only [Nat.zero_add] at hread
  rw [← take_eq_slice] at hread
  unfold readBloscpackHeader at e
  rw [Proc.bind_of_ok hread] at e
  obtain ⟨hd2, s2, e2, e3⟩ := Proc.bind_ok_iff.1 e
  rw [Proc.ofExcept_apply, Prod.mk.injEq] at e2
  obtain ⟨hdec, rfl⟩ := e2
  obtain ⟨hok, hbytes⟩ := (BloscpackHeader.decode_iff _ _).1 hdec
  have h32 : (x.take 32).length = 32 := by rw [hbytes, hd2.bytes_length]
  have hver : hd2.format_version = 3 := by
    apply Classical.byContradiction
    intro hne
    have hbad : FORMAT_VERSION ≠ hd2.format_version := fun h => hne h.symm
    rw [Proc.bind_of_error (Proc.raiseIf_pos hbad _ _)] at e3
    cases e3
  rw [Proc.bind_of_ok (Proc.raiseIf_neg (by rw [hver]; decide) _ _)] at e3
  cases e3
  refine ⟨hok, hver, hbytes, ?_⟩
  simp only [h32]

theorem readBeginning_same (L : E.Laws) (hs : Spec.SameButReading E E') (hv : Spec.SameOnVerified E E' x) (b : Bool) :
    readBeginning E ({ data := x, inMemory := b } : FP) = readBeginning E' ({ data := x, inMemory := b } : FP) := by
  unfold readBeginning
  refine Proc.bind_congr' rfl fun h s1 e1 => Proc.bind_congr' ?_ fun _ _ _ => rfl
  split
  · refine Proc.bind_congr' (readMetadata_same L hs hv _ ?_ ?_) fun _ _ _ => rfl
    all_goals rw [(readHeader_at e1).2.2.2]
  · rfl

/-- what `_read_compressed_chunk_fp` delivers: bytes that stand in the file, and the digest that stands behind them, cut short if the file
ends -/
theorem readChunk_at {impl : Hash} {s s' : FP} {c : Bytes} {bh : BloscHeader} {dg : Option Bytes}
    (e : readCompressedChunk impl s = (.ok (c, bh, dg), s')) :
    ∃ A R, s.data = A ++ (c ++ R) ∧ (impl.size > 0 ∧ dg = some (R.take impl.size) ∨ impl.size = 0 ∧ dg = none) := by
  have hread : fpRead (BLOSC_HEADER_LENGTH : Int) s = _ := fpRead_at s 16
  unfold readCompressedChunk at e
  rw [Proc.bind_of_ok hread] at e
  obtain ⟨bh', s1, e1, e2⟩ := Proc.bind_ok_iff.1 e
  rw [Proc.ofExcept_apply, Prod.mk.injEq] at e1
  obtain ⟨e1, rfl⟩ := e1
  have h16 : (slice s.data s.pos (s.pos + 16)).length = 16 := by
    have h1 := (C50_blosc_header_total _).1 ⟨_, e1⟩
    have h2 : (slice s.data s.pos (s.pos + 16)).length ≤ 16 := by simp [slice]; omega
    omega
  simp only [h16] at e2
  obtain ⟨_, s2, e3, e4⟩ := Proc.bind_ok_iff.1 e2
  obtain ⟨-, rfl⟩ := (fpSeekRel_at_iff _ _ _).1 e3
  simp only [show ((s.pos + 16 : Nat) : Int) + -(BLOSC_HEADER_LENGTH : Int) = s.pos by simp [BLOSC_HEADER_LENGTH]; omega, Int.toNat_natCast] at e4
  have hcomp : fpRead bh'.ctbytes = fpRead (bh'.ctbytes.toNat : Nat) := by
    have : 0 ≤ bh'.ctbytes := by
      unfold decodeBloscHeader at e1
      simp only [Except.bind_ok_iff] at e1
      obtain ⟨_, _, _, _, _, _, _, _, _, _, _, _, ct, hct, e1⟩ := e1
      cases e1
      exact (decodeUInt32_iff.1 hct).1
    rw [Int.toNat_of_nonneg this]
  rw [hcomp, Proc.bind_of_ok (fpRead_at _ _)] at e4
  have hsplit : ∀ (d : Bytes) (p n : Nat), d = d.take p ++ (slice d p (p + n) ++ d.drop (p + (slice d p (p + n)).length)) := by
    intro d p n
    have h1 : slice d p (p + n) = (d.drop p).take n := by simp [slice]
    rw [h1, ← List.drop_drop]
    have h2 : ∀ l : Bytes, l = l.take n ++ l.drop (l.take n).length := by
      intro l
      rw [List.length_take]
      rcases Nat.le_total n l.length with h | h
      · rw [Nat.min_eq_left h, List.take_append_drop]
      · rw [Nat.min_eq_right h, List.take_of_length_le h, List.drop_length, List.append_nil]
    rw [← h2, List.take_append_drop]
  refine ⟨s.data.take s.pos, s.data.drop (s.pos + (slice s.data s.pos (s.pos + bh'.ctbytes.toNat)).length), ?_, ?_⟩
  · by_cases hz : impl.size > 0
    · rw [if_pos hz, Proc.bind_of_ok (fpRead_at _ _)] at e4
      cases e4
      exact hsplit _ _ _
    · rw [if_neg hz] at e4
      cases e4
      exact hsplit _ _ _
  · by_cases hz : impl.size > 0
    · rw [if_pos hz, Proc.bind_of_ok (fpRead_at _ _)] at e4
      cases e4
      refine .inl ⟨hz, ?_⟩
      simp [slice]
    · rw [if_neg hz] at e4
      cases e4
      exact .inr ⟨by omega, rfl⟩

theorem unpackLoop_same (L : E.Laws) (hs : Spec.SameButReading E E') (hv : Spec.SameOnVerified E E' x) (h : BloscpackHeader) (hok : h.OK)
    (hver : h.format_version = 3) (hx : x.take 32 = h.bytes) {impl : Hash}
    (hi : h.checksumImpl E = .ok impl) : ∀ (n i : Nat) (s t : FP), s.data = x →
      unpackLoop (compressedFPSource h impl) (plainFPSinkPut E) n i (s, t) = unpackLoop (compressedFPSource h impl) (plainFPSinkPut E') n i (s, t) := by
  intro n
  induction n with
  | zero => intros; rfl
  | succ n ih =>
    intro i s t hd
    show (Proc.onFst ((compressedFPSource h impl).next i) >>= fun cd =>
      Proc.ofExcept (checkDigest (compressedFPSource h impl).checksumImpl cd.1 cd.2) >>= fun _ => Proc.onSnd (plainFPSinkPut E cd.1) >>= fun _ =>
      unpackLoop (compressedFPSource h impl) (plainFPSinkPut E) n (i + 1)) (s, t) = (Proc.onFst ((compressedFPSource h impl).next i) >>= fun cd =>
      Proc.ofExcept (checkDigest (compressedFPSource h impl).checksumImpl cd.1 cd.2) >>= fun _ => Proc.onSnd (plainFPSinkPut E' cd.1) >>= fun _ =>
      unpackLoop (compressedFPSource h impl) (plainFPSinkPut E') n (i + 1)) (s, t)
    refine Proc.bind_congr' rfl fun cd s1 e1 => ?_
    refine Proc.bind_congr' rfl fun _ s2 e2 => ?_
    have hdec : E'.decompress cd.1 = E.decompress cd.1 ∧ s2.1.data = x := by
      rw [Proc.onFst_apply] at e1
      cases hn : (compressedFPSource h impl).next i s with
      | mk r s' =>
      rw [hn] at e1
      cases e1
      have hn' : (readCompressedChunk impl >>= fun r => Proc.pure (r.1, r.2.2)) s = (.ok cd, s') := hn
      obtain ⟨⟨c, bh, dg⟩, s4, e4, e5⟩ := Proc.bind_ok_iff.1 hn'
      cases e5
      rw [Proc.ofExcept_apply, Prod.mk.injEq] at e2
      obtain ⟨e2, rfl⟩ := e2
      obtain ⟨A, R, h1, h2⟩ := readChunk_at e4
      refine ⟨hv.1 c ⟨h.offsets, h.metadata, h.checksum, h.typesize, h.chunk_size, h.last_chunk, h.nchunks, h.max_app_chunks, A, R, ?_, ?_, ?_, ?_⟩, ?_⟩
      · rw [← hver]; exact hok
      · rw [← hver]; exact hx
      · rw [← hd]; exact h1
      · have hd1 := (digest_eq (E := E) hi c).1
        rw [← hd1]
        rcases h2 with ⟨g1, rfl⟩ | ⟨g1, rfl⟩
        · unfold checkDigest at e2
          simp only at e2
          split at e2
          · cases e2
          · rename_i hne
            by_cases hR : R = []
            · exact .inr hR
            · left
              have hne' : R.take impl.size ≠ [] := by
                cases R with
                | nil => exact absurd rfl hR
                | cons a R => cases hz : impl.size with
                  | zero => omega
                  | succ k => simp
              have : R.take impl.size = impl.function c := by
                apply Classical.byContradiction
                intro hq
                exact hne ⟨hne', hq⟩
              rw [← this]
              exact List.take_prefix _ _
        · left
          have := Hash.size_eq L (checksumLookup_mem hi).1 c
          rw [List.length_eq_zero_iff.1 (this.trans g1)]
          exact List.nil_prefix
      · have := (ReadOnly.readCompressedChunk impl s).1
        rw [e4] at this
        rw [this, hd]
    refine Proc.bind_congr' ?_ fun _ s3 e3 => ?_
    · rw [Proc.onSnd_apply, Proc.onSnd_apply]
      unfold plainFPSinkPut
      rw [hdec.1]
    · obtain ⟨s3, t3⟩ := s3
      refine ih _ _ _ ?_
      have := congrArg (fun r => r.2.1) e3
      rw [Proc.onSnd_apply] at this
      have hq : s2.1 = s3 := this
      rw [← hq]
      exact hdec.2

theorem unpackFP_same (L : E.Laws) (hs : Spec.SameButReading E E') (hv : Spec.SameOnVerified E E' x) (b : Bool) :
    unpackFP E ({ data := x, inMemory := b } : FP) = unpackFP E' ({ data := x, inMemory := b } : FP) := by
  unfold unpackFP
  rw [← readBeginning_same L hs hv b]
  cases hb : readBeginning E ({ data := x, inMemory := b } : FP) with
  | mk r fp =>
  cases r with
  | error e => rfl
  | ok r =>
    obtain ⟨h, m, mh, os⟩ := r
    simp only
    have hci : h.checksumImpl E' = h.checksumImpl E := by unfold BloscpackHeader.checksumImpl; rw [hs.2.2.1]
    rw [hci]
    cases hi : h.checksumImpl E with
    | error e => rfl
    | ok impl =>
      simp only
      unfold unpack
      have hh : h.OK ∧ h.format_version = 3 ∧ x.take 32 = h.bytes := by
        unfold readBeginning at hb
        obtain ⟨h', s1, e1, g1⟩ := Proc.bind_ok_iff.1 hb
        obtain ⟨mm, s2, -, g2⟩ := Proc.bind_ok_iff.1 g1
        obtain ⟨os', s3, -, g3⟩ := Proc.bind_ok_iff.1 g2
        cases g3
        exact ⟨(readHeader_at e1).1, (readHeader_at e1).2.1, (readHeader_at e1).2.2.1⟩
      rw [unpackLoop_same L hs hv h hh.1 hh.2.1 hh.2.2 hi _ _ _ _ (readBeginning_data hb)]

end

/-- C91: what unpacking does with a file depends on blosc only as far as chunks are concerned that are followed by their digest (or end the
file), and on zlib and json only as far as a metadata body with the right digest is concerned, and what comes out of it. Nothing else of
the file reaches them: with any other library `E'` that treats these bytes alike the result is the same, exceptions and output included. -/
theorem C91_only_verified (E E' : Env μ) (L : E.Laws) (x : Bytes) (hs : Spec.SameButReading E E') (hv : Spec.SameOnVerified E E' x) :
    unpackBytesFromBytes E x = unpackBytesFromBytes E' x ∧
    (∀ (fs : FS) (name : String), fs.files name = some x → unpackBytesFromFile E fs name = unpackBytesFromFile E' fs name) ∧
    ∀ (fs : FS) (i o : String), fs.files i = some x → i ≠ o → unpackFileFromFile E fs i o = unpackFileFromFile E' fs i o := by
  refine ⟨?_, ?_, ?_⟩
  · unfold unpackBytesFromBytes
    rw [unpackFP_same L hs hv]
  · intro fs name hx
    unfold unpackBytesFromFile unpackFrom FS.openRead
    rw [hx]
    simp only
    rw [unpackFP_same L hs hv false]
  · intro fs i o hx hne
    unfold unpackFileFromFile FS.getsize FS.openRead
    rw [hx]
    simp only
    cases ho : fs.openWrite o with
    | error e => rfl
    | ok fs1 =>
      have hcur : fs1.current i = x := by
        unfold FS.openWrite at ho
        split at ho
        · cases ho
          simp [FS.current, FS.put, hne, hx]
        · cases ho
      simp only [hcur, unpackFrom]
      rw [unpackFP_same L hs hv false]

open Classical in
/-- the libraries with a guard that refuses everything but verified bytes of `x`, and what zlib makes of them, with the exception `e` -/
noncomputable def Spec.guarded (E : Env μ) (x : Bytes) (e : Err) : Env μ :=
  { E with
    decompress := fun c => if Spec.VerifiedChunk E x c then E.decompress c else .error e
    zdecompress := fun b => if Spec.VerifiedBody E x b then E.zdecompress b else .error e
    loads := fun t => if Spec.VerifiedBody E x t ∨ ∃ b, Spec.VerifiedBody E x b ∧ E.zdecompress b = .ok t then E.loads t else .error e }

/-- C91, put differently: such a guard makes no difference. -/
theorem C91_guard (E : Env μ) (L : E.Laws) (x : Bytes) (e : Err) : unpackBytesFromBytes E x = unpackBytesFromBytes (Spec.guarded E x e) x := by
  refine (C91_only_verified E (Spec.guarded E x e) L x ⟨rfl, rfl, rfl, rfl, rfl, rfl⟩ ⟨?_, ?_⟩).1
  · intro c hc
    exact if_pos hc
  · intro b hb
    exact ⟨if_pos hb, if_pos (.inl hb), fun raw hr => if_pos (.inr ⟨b, hb, hr⟩)⟩

/-- in a packed file with one changed byte blosc would decompress the second chunk, but it is refused; and so it is if blosc would make
something else of it -/
example : (packBytesToBytes Toy.env [1, 2, 3, 4] (.int 2) none {} { offsets := false } {}).toOption.map (fun p =>
    let y := p.set 71 9
    let E' : Env Nat := { Toy.env with decompress := fun c => if c = slice y 54 72 then .ok [8, 8, 8] else Toy.env.decompress c }
    [(Toy.env.decompress (slice p 54 72)).toOption, (Toy.env.decompress (slice y 54 72)).toOption, (E'.decompress (slice y 54 72)).toOption,
      (unpackBytesFromBytes Toy.env p).toOption.map (·.1), (unpackBytesFromBytes E' p).toOption.map (·.1),
      (unpackBytesFromBytes Toy.env y).toOption.map (·.1), (unpackBytesFromBytes E' y).toOption.map (·.1)]) =
    some [some [3, 4], some [3, 9], some [8, 8, 8], some [1, 2, 3, 4], some [1, 2, 3, 4], none, none] := by
  decide +kernel


end Bloscpack
