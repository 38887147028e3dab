import Verif.Props.Verified
import Verif.Props.Append
import Verif.Spec.Pieces

/-! C92: what blosc is asked to compress. -/
namespace Bloscpack
variable {μ : Type}

/-- the same libraries, but another way to compress -/
def Env.withCompress (E : Env μ) (f : Bytes → BloscArgs → Except Err Bytes) : Env μ := { E with compress := f }

theorem slice_of_pieces {c : Nat} (init : List Bytes) (tl : Bytes) (hi : ∀ b ∈ init, b.length = c) (ht : tl.length ≤ c) :
    (∀ d ∈ init, ∃ i, i < init.length ∧ d = slice (init ++ [tl]).flatten (i * c) ((i + 1) * c)) ∧
    tl = slice (init ++ [tl]).flatten (init.length * c) ((init.length + 1) * c) := by
  induction init with
  | nil => refine ⟨by simp, ?_⟩; simp [slice, List.take_of_length_le ht]
  | cons b init ih =>
    have hb : b.length = c := hi b (by simp)
    obtain ⟨i1, i2⟩ := ih (fun x hx => hi x (by simp [hx]))
    have hs : ∀ i, slice (b :: init ++ [tl]).flatten ((i + 1) * c) ((i + 1 + 1) * c) = slice (init ++ [tl]).flatten (i * c) ((i + 1) * c) := by
      intro i
      unfold slice
      have e : (b :: init ++ [tl]).flatten = b ++ (init ++ [tl]).flatten := by simp
      have e2 : (i + 1) * c = b.length + i * c := by rw [Nat.add_mul, hb]; omega
      have e3 : (i + 1 + 1) * c - (i + 1) * c = (i + 1) * c - i * c := by simp only [Nat.add_mul]; omega
      rw [e, e3]
      conv => lhs; rw [e2, ← List.drop_drop, List.drop_left]
      rw [e2]
    refine ⟨?_, ?_⟩
    · intro d hd
      rcases List.mem_cons.1 hd with rfl | hd
      · refine ⟨0, by simp, ?_⟩
        simp [slice, ← hb]
      · obtain ⟨i, h1, h2⟩ := i1 d hd
        exact ⟨i + 1, by simp; omega, by rw [hs]; exact h2⟩
    · rw [List.length_cons, hs]; exact i2

/-- what `PlainFPSource` yields -/
theorem plainFPSource_pieces (data : Bytes) (cs : ChunkSizeArg) {n c l : Int} (h : calculateNchunks data.length cs = .ok (n, c, l)) :
    ∀ d ∈ (plainFPSource { data := data } c l n).items, Spec.Piece data cs d := by
  have hB : BLOSC_MAX_BUFFERSIZE = 2 ^ 31 - 17 := by decide
  obtain ⟨h1, h2, -, h4, h4', h5, h6⟩ := C02_chunking_covers _ _ _ _ _ h
  have hcl : 0 ≤ l ∧ 0 ≤ c := by
    by_cases hz : (data.length : Int) = 0
    · have := h5 hz; omega
    · have := (h6 hz).1; omega
  obtain ⟨C, rfl⟩ := Int.eq_ofNat_of_zero_le hcl.2
  obtain ⟨l, rfl⟩ := Int.eq_ofNat_of_zero_le hcl.1
  obtain ⟨k, hk⟩ := Int.eq_ofNat_of_zero_le (show 0 ≤ n - 1 by omega)
  have hlen : data.length = k * C + l := by
    rw [hk] at h1
    have : ((C * k + l : Nat) : Int) = data.length := by rw [Int.natCast_add, Int.natCast_mul]; exact h1
    rw [Nat.mul_comm]; omega
  obtain ⟨init, tl, s', e1, e2, e3, e4, e5⟩ := readMany_chunks C l k [] data [] hlen
  intro d hd
  have hd : d ∈ init ++ [tl] := by
    have : (plainFPSource { data := data } C l n).items = init ++ [tl] := by
      show (readMany (List.replicate (n - 1).toNat (C : Int) ++ [(l : Int)]) (Z [] data [])).1 = _
      rw [hk, Int.toNat_natCast, e1]
    rwa [this] at hd
  by_cases hz : data.length = 0
  · obtain ⟨z1, z2, z3⟩ := h5 (by omega)
    have : k = 0 := by omega
    subst this
    have : init = [] := List.length_eq_zero_iff.1 e2
    subst this
    refine .inl ⟨List.length_eq_zero_iff.1 hz, ?_⟩
    simp at hd
    subst hd
    exact List.length_eq_zero_iff.1 (by omega)
  · obtain ⟨g1, v, g2, g3, g4, g5⟩ := h6 (by omega)
    obtain ⟨v', hv', hv1, hv2⟩ := calculateNchunks_requested (by omega) h
    have hvv : v' = v := by
      rcases g2 with rfl | ⟨s, rfl, g2⟩
      · rcases hv' with hv' | ⟨s, hv', -⟩ <;> cases hv'
        rfl
      · rcases hv' with hv' | ⟨s', hv', hv''⟩ <;> cases hv'
        rw [g2] at hv''; cases hv''; rfl
    subst hvv
    obtain ⟨V, rfl⟩ := Int.eq_ofNat_of_zero_le (show 0 ≤ v' by omega)
    obtain ⟨p1, p2⟩ := slice_of_pieces init tl e3 (by omega)
    rw [e5] at p1 p2
    refine .inr ⟨V, ?_⟩
    by_cases hbig : (V : Int) ≤ data.length
    · have : C = V := by have := g4 hbig; omega
      subst this
      rcases List.mem_append.1 hd with hd | hd
      · obtain ⟨i, q1, q2⟩ := p1 d hd
        refine ⟨i, g2, by omega, ?_, q2⟩
        have := Nat.mul_le_mul_right C (show i + 1 ≤ k by omega)
        rw [Nat.add_mul] at this
        omega
      · rw [List.mem_singleton] at hd
        subst hd
        exact ⟨init.length, g2, by omega, by rw [e2]; omega, p2⟩
    · have hk1 := g5 1 (by omega)
      have : k = 0 := by omega
      subst this
      have : init = [] := List.length_eq_zero_iff.1 e2
      subst this
      simp at hd e5
      subst hd e5
      refine ⟨0, g2, by omega, by omega, ?_⟩
      unfold slice
      rw [Nat.zero_mul, List.drop_zero, List.take_of_length_le (by omega)]

section
variable (E : Env μ) (f : Bytes → BloscArgs → Except Err Bytes)

theorem packLoop_same {σ : Type} (sink : CompressedSink μ σ) (a : BloscArgs) (i : Nat) (items : List Bytes)
    (h : ∀ d ∈ items, f d a = E.compress d a) (s : σ) : packLoop (E.withCompress f) sink a i items s = packLoop E sink a i items s := by
  induction items generalizing i s with
  | nil => rfl
  | cons d items ih =>
    unfold packLoop
    refine Proc.bind_congr' ?_ (fun _ _ _ => Proc.bind_congr' rfl (fun _ _ _ => ih _ (fun d hd => h d (by simp [hd])) _))
    show Proc.ofExcept (f d a) s = _
    rw [h d (by simp)]

theorem pack_same (source : PlainSource) (n c l : Int) (md : Option μ) (a : BloscArgs) (b : BloscpackArgs) (m : MetadataArgs)
    (h : ∀ d ∈ (source c l n).items, f d a = E.compress d a) (s : FPSink) :
    pack (E.withCompress f) source (compressedFPSink (E.withCompress f)) n c l md a b m s =
      pack E source (compressedFPSink E) n c l md a b m s := by
  unfold pack
  refine Proc.bind_congr' rfl (fun _ _ _ => Proc.bind_congr' rfl (fun _ _ _ => Proc.bind_congr' rfl (fun _ _ _ => Proc.bind_congr' rfl
    (fun _ _ _ => Proc.bind_congr' rfl (fun _ _ _ => ?_)))))
  refine Proc.bind_congr' ?_ (fun _ _ _ => rfl)
  exact packLoop_same E f _ a 0 _ h _

end

/-- C92: packing asks blosc to compress the consecutive pieces of the data of the requested chunk size, with the given settings, and nothing
else: any other way to compress that treats these alike gives the same result, in memory and in files, exceptions included. -/
theorem C92_pack (E : Env μ) (f : Bytes → BloscArgs → Except Err Bytes) (data : Bytes) (cs : ChunkSizeArg) (md : Option μ) (a : BloscArgs)
    (b : BloscpackArgs) (m : MetadataArgs) (h : ∀ d, Spec.Piece data cs d → f d a = E.compress d a) :
    packBytesToBytes (E.withCompress f) data cs md a b m = packBytesToBytes E data cs md a b m ∧
    (∀ (fs : FS) (name : String), packBytesToFile (E.withCompress f) fs data name cs md a b m = packBytesToFile E fs data name cs md a b m) ∧
    ∀ (fs : FS) (i o : String), fs.files i = some data → i ≠ o →
      packFileToFile (E.withCompress f) fs i o cs md a b m = packFileToFile E fs i o cs md a b m := by
  refine ⟨?_, ?_, ?_⟩
  · unfold packBytesToBytes
    split
    · rfl
    · rename_i n c l hc
      rw [pack_same E f _ n c l md a b m (fun d hd => h d (plainFPSource_pieces data cs hc d hd))]
  · intro fs name
    unfold packBytesToFile
    split
    · rfl
    · rename_i n c l hc
      split
      · rfl
      · rw [pack_same E f _ n c l md a b m (fun d hd => h d (plainFPSource_pieces data cs hc d hd))]
  · intro fs i o hx hne
    unfold packFileToFile
    rw [show fs.getsize i = .ok data.length by simp [FS.getsize, hx]]
    simp only
    split
    · rfl
    · rename_i n c l hc
      split
      · rfl
      · split
        · rfl
        · rename_i fs1 ho
          have hcur : fs1.current i = data := by
            unfold FS.openWrite at ho
            split at ho
            · cases ho
              simp [FS.current, FS.put, hne, hx]
            · cases ho
          rw [hcur, pack_same E f _ n c l md a b m (fun d hd => h d (plainFPSource_pieces data cs hc d hd))]

/-- C92, put differently: chunks are never larger than the requested size, nor than blosc can take. If blosc would fail for anything larger,
or do anything else, it would make no difference. -/
theorem C92_pack_size (E : Env μ) (f : Bytes → BloscArgs → Except Err Bytes) (data : Bytes) (cs : ChunkSizeArg) (md : Option μ) (a : BloscArgs)
    (b : BloscpackArgs) (m : MetadataArgs) (v : Nat) (hv : Spec.RequestedSize cs v)
    (h : ∀ d : Bytes, d.length ≤ v → d.length ≤ 2 ^ 31 - 17 → f d a = E.compress d a) :
    packBytesToBytes (E.withCompress f) data cs md a b m = packBytesToBytes E data cs md a b m := by
  refine (C92_pack E f data cs md a b m (fun d hd => h d ?_ hd.small.1)).1
  by_cases hz : d = []
  · subst hz; exact Nat.zero_le _
  · obtain ⟨w, hw, hl⟩ := hd.small.2.2 hz
    rcases hv with rfl | ⟨s, rfl, hv⟩
    · rcases hw with hw | ⟨s, hw, -⟩ <;> cases hw
      exact hl
    · rcases hw with hw | ⟨s', hw, hw'⟩ <;> cases hw
      rw [hv] at hw'
      injection hw' with hw'
      omega

/-! ### appending -/

section
variable {E : Env μ} {F : File μ} (f : Bytes → BloscArgs → Except Err Bytes)

/-- the first half of `append_fp` does not compress anything -/
theorem appendFrom_start_same (L : E.Laws) (hv : F.Pre E) (ho : F.header.offsets = true) {pos : Int}
    (hpos : offsetsPos E F.metadata (F.sec.map (·.header)) = .ok pos) {os : List Int}
    (hos : decodeOffsets F.offsets F.header.nchunks.toNat = .ok os) {A c d D R T : Bytes}
    (hA : F.front E ++ T = A ++ (c ++ (D ++ R))) (hlast : lastOffset os = .ok (A.length : Int)) (hp : E.decompress c = .ok d)
    (hD : D.length = (F.impl E).size) (first : Int → Bytes) (source : Int → Int → Int → Int → List Bytes) (n : Int) (args : AppendArgs)
    (l : List (Nat × Bytes)) :
    appendFrom (E.withCompress f) first source n args (Z [] (F.front E ++ T) l) =
      (if n ≤ F.header.chunk_size - d.length then
        squeezeIn (E.withCompress f) F.header (F.impl E) A.length (args.filled F.header) d (first n) n (Z (A ++ (c ++ D)) R l)
      else growBy (E.withCompress f) F.header (F.impl E) os pos A.length (args.filled F.header) d (first (F.header.chunk_size - d.length))
        (source (F.header.chunk_size - d.length)) n (F.header.chunk_size - d.length) (Z (A ++ (c ++ D)) R l)) := by
  obtain ⟨hl1, hl2, -⟩ := File.lookup hv
  obtain ⟨os', h1, h2, -⟩ := readBeginning_file L hv T l
  have h2 := h2 ho
  rw [hos] at h2
  cases h2
  have hne : os ≠ [] := by
    intro h
    rw [h] at hlast
    cases hlast
  obtain ⟨bh, dg, hrd⟩ := readChunk_digest (F.impl E) A c D R l (framed_of_decompress L hp) hD
  have hsk : fpSeek (A.length : Int) (Z (F.front E) T l) = (.ok (), Z A (c ++ (D ++ R)) l) := fpSeek_Z _ _ _ _ _ _ hA rfl
  have h1' : readBeginning (E.withCompress f) (Z [] (F.front E ++ T) l) = _ := h1
  have hl1' : F.header.checksumImpl (E.withCompress f) = _ := hl1
  have hpos' : offsetsPos (E.withCompress f) F.metadata (F.sec.map (·.header)) = _ := hpos
  have hp' : (E.withCompress f).decompress c = _ := hp
  unfold appendFrom
  rw [Proc.bind_of_ok h1']
  simp only
  rw [Proc.bind_of_ok (Proc.ofExcept_apply _ _ |>.trans (by rw [hl1'])),
    Proc.bind_of_ok (Proc.raiseIf_neg hne _ _),
    Proc.bind_of_ok (Proc.ofExcept_apply _ _ |>.trans (by rw [args.fill_ok hv.ok])),
    Proc.bind_of_ok (Proc.ofExcept_apply _ _ |>.trans (by rw [hpos'])),
    Proc.bind_of_ok (Proc.ofExcept_apply _ _ |>.trans (by rw [hlast])),
    Proc.bind_of_ok hsk, Proc.bind_of_ok hrd,
    Proc.bind_of_ok (Proc.ofExcept_apply _ _ |>.trans (by rw [hp']))]
  split <;> rfl

theorem appendLoop_same (a : BloscArgs) (i : Nat) (items : List Bytes)
    (h : ∀ d ∈ items, f d a = E.compress d a) (s : FPSink) : appendLoop (E.withCompress f) a i items s = appendLoop E a i items s := by
  induction items generalizing i s with
  | nil => rfl
  | cons d items ih =>
    unfold appendLoop
    refine Proc.bind_congr' ?_ (fun _ _ _ => Proc.bind_congr' rfl (fun _ _ _ => ih _ (fun d hd => h d (by simp [hd])) _))
    show Proc.ofExcept (f d a) s = _
    rw [h d (by simp)]

theorem squeezeIn_same (h : BloscpackHeader) (impl : Hash) (last : Int) (a : BloscArgs) (d fill : Bytes) (n : Int)
    (hf : f (d ++ fill) a = E.compress (d ++ fill) a) (s : FP) :
    squeezeIn (E.withCompress f) h impl last a d fill n s = squeezeIn E h impl last a d fill n s := by
  unfold squeezeIn
  refine Proc.bind_congr' rfl (fun _ _ _ => Proc.bind_congr' ?_ (fun _ _ _ => rfl))
  show Proc.ofExcept (f _ a) _ = _
  rw [hf]

theorem growBy_same (h : BloscpackHeader) (impl : Hash) (offsets : List Int) (pos last : Int) (a : BloscArgs) (d fill : Bytes)
    (source : Int → Int → Int → List Bytes) (n btr : Int)
    (hf : ∀ k c l, calculateNchunks (n - btr) (.int h.chunk_size) = .ok (k, c, l) →
      f (d ++ fill) a = E.compress (d ++ fill) a ∧ ∀ x ∈ source c l k, f x a = E.compress x a) (s : FP) :
    growBy (E.withCompress f) h impl offsets pos last a d fill source n btr s = growBy E h impl offsets pos last a d fill source n btr s := by
  unfold growBy
  refine Proc.bind_congr' rfl (fun c s' hc => ?_)
  rw [Proc.ofExcept_apply] at hc
  obtain ⟨k, c, l⟩ := c
  obtain ⟨hf1, hf2⟩ := hf k c l (by injection hc)
  refine Proc.bind_congr' rfl (fun _ _ _ => Proc.bind_congr' rfl (fun _ _ _ => Proc.bind_congr' ?_ (fun _ _ _ => Proc.bind_congr' rfl
    (fun _ _ _ => Proc.bind_congr' ?_ (fun _ _ _ => rfl)))))
  · show Proc.ofExcept (f _ a) _ = _
    rw [hf1]
  · unfold withSink
    rw [appendLoop_same f a 0 _ hf2]

end

/-- the pieces of the data of a conforming file and new data that `append_fp` compresses -/
theorem append_pieces {E : Env μ} {F : File μ} (hc : F.Conforming E) {init : List (Bytes × Bytes)} {p : Bytes × Bytes} (new : Bytes)
    (hch : F.chunks = init ++ [p]) (hi : ∀ q ∈ init, (q.2.length : Int) = F.header.chunk_size)
    (hp : (p.2.length : Int) = F.header.last_chunk) (tail : List Bytes) (tl : Bytes)
    (hne : F.data ++ new ≠ [] → 1 ≤ tl.length)
    (he : (init.map (·.2) ++ (tail ++ [tl])).flatten = F.data ++ new) (ht : ∀ d ∈ tail, (d.length : Int) = F.header.chunk_size)
    (hl : (tl.length : Int) ≤ F.header.chunk_size) : ∀ d ∈ tail ++ [tl], Spec.Piece (F.data ++ new) (.int F.header.chunk_size) d := by
  intro d hd
  have hcs : 0 ≤ F.header.chunk_size := by omega
  have hmax : F.header.chunk_size ≤ 2 ^ 31 - 17 := by
    have hB : BLOSC_MAX_BUFFERSIZE = 2 ^ 31 - 17 := by decide
    have := hc.ok.2.2.2.1.2; omega
  obtain ⟨C, hC⟩ := Int.eq_ofNat_of_zero_le hcs
  obtain ⟨p1, p2⟩ := slice_of_pieces (c := C) (init.map (·.2) ++ tail) tl (by
    intro b hb
    rcases List.mem_append.1 hb with hb | hb
    · obtain ⟨q, hq, rfl⟩ := List.mem_map.1 hb
      have := hi q hq; omega
    · have := ht b hb; omega) (by omega)
  rw [List.append_assoc, he] at p1 p2
  have hlen : (F.data ++ new).length = (init.map (·.2) ++ tail).length * C + tl.length := by
    rw [← he, ← List.append_assoc, List.flatten_append, List.length_append, List.length_flatten]
    have : ((init.map (·.2) ++ tail).map List.length) = List.replicate (init.map (·.2) ++ tail).length C := by
      rw [List.eq_replicate_iff]
      refine ⟨by simp, ?_⟩
      intro b hb
      obtain ⟨q, hq, rfl⟩ := List.mem_map.1 hb
      rcases List.mem_append.1 hq with hq | hq
      · obtain ⟨r, hr, rfl⟩ := List.mem_map.1 hq
        have := hi r hr; omega
      · have := ht q hq; omega
    rw [this, List.sum_replicate_nat]
    simp
  by_cases hz : F.data ++ new = []
  · left
    refine ⟨hz, ?_⟩
    have h0 : ∀ x ∈ init.map (·.2) ++ (tail ++ [tl]), x = [] := by
      rw [hz] at he
      exact List.flatten_eq_nil_iff.1 he
    exact h0 d (List.mem_append_right _ hd)
  · have h1 := hne hz
    right
    refine ⟨C, ?_⟩
    rcases List.mem_append.1 hd with hd | hd
    · obtain ⟨i, q1, q2⟩ := p1 d (List.mem_append_right _ hd)
      refine ⟨i, .inl (by rw [hC]), by omega, ?_, q2⟩
      have := Nat.mul_le_mul_right C (Nat.le_of_lt q1)
      omega
    · rw [List.mem_singleton] at hd
      subst hd
      exact ⟨_, .inl (by rw [hC]), by omega, by omega, p2⟩

/-- C92: appending to a conforming file asks blosc to compress consecutive pieces, of the chunk size of the file, of the old and the new data
taken together, with the settings filled in from the file, and nothing else. -/
theorem C92_append (E : Env μ) (L : E.Laws) (f : Bytes → BloscArgs → Except Err Bytes) (F : File μ) (hc : F.Conforming E) (hnn : F.NoNull)
    (new : Bytes) (args : AppendArgs)
    (h : ∀ d, Spec.Piece (F.data ++ new) (.int F.header.chunk_size) d → f d (args.filled F.header) = E.compress d (args.filled F.header)) :
    appendFile (E.withCompress f) (F.bytes E) new args = appendFile E (F.bytes E) new args := by
  suffices hs : appendFp (E.withCompress f) { data := new } new.length args { data := F.bytes E } =
      appendFp E { data := new } new.length args { data := F.bytes E } by
    unfold appendFile
    rw [hs]
  cases ho : F.header.offsets with
  | false =>
    rw [append_no_offsets L hc.toPre ho]
    obtain ⟨os, h1, -, h2⟩ := readBeginning_file L hc.toPre (F.body E ++ F.junk) []
    have h3 := (File.lookup hc.toPre).1
    have hz : ({ data := F.bytes E } : FP) = Z [] (F.front E ++ (F.body E ++ F.junk)) [] := rfl
    have h1' : readBeginning (E.withCompress f) (Z [] (F.front E ++ (F.body E ++ F.junk)) []) = _ := h1
    have h3' : F.header.checksumImpl (E.withCompress f) = _ := h3
    unfold appendFp appendFrom
    rw [hz, Proc.bind_of_ok h1', Proc.bind_of_ok (Proc.ofExcept_apply _ _ |>.trans (by rw [h3'])),
      Proc.bind_of_error (Proc.raiseIf_pos (h2 ho) _ _)]
  | true =>
    obtain ⟨init, p, hch, hi, hp⟩ := hc.lengths
    have hd : E.decompress p.1 = .ok p.2 := hc.chunks_ok p (by rw [hch]; simp)
    have hlast : lastOffset (Spec.positions (F.impl E).function (F.front E).length (F.chunks.map (·.1))) =
        .ok ((headPart E F init).length : Int) := by
      rw [show F.chunks.map (·.1) = init.map (·.1) ++ [p.1] by rw [hch]; simp, lastOffset_positions]; simp [headPart]
    have hD : ((F.impl E).function p.1).length = (F.impl E).size := Hash.size_eq L (File.lookup hc.toPre).2.1 _
    have e0 : F.front E ++ (F.body E ++ F.junk) = headPart E F init ++ (p.1 ++ ((F.impl E).function p.1 ++ F.junk)) := by
      rw [← File.bytes_split hch]; rfl
    have hpos := offsetsPos_ok L hc.toPre hnn
    have hz : ({ data := F.bytes E } : FP) = Z [] (F.front E ++ (F.body E ++ F.junk)) [] := rfl
    unfold appendFp
    rw [hz, appendFrom_start_same f L hc.toPre ho hpos (hc.located.decode_table ho) e0 hlast hd hD,
      appendFrom_start_raw L hc.toPre ho hpos (hc.located.decode_table ho) e0 hlast hd (take_digest hD _)]
    have hdata : F.data = (init.map (·.2)).flatten ++ p.2 := by unfold File.data; rw [hch]; simp
    have hsz := hc.sizes
    have hrd : ∀ n : Nat, ({ data := new } : FP).read n = (new.take n, Z (new.take n) (new.drop n) []) := by
      intro n
      have := fpRead_Z [] new [] n
      simp only [fpRead_eq, Prod.mk.injEq, Except.ok.injEq] at this
      exact Prod.ext this.1 this.2
    split
    · rename_i hle
      refine squeezeIn_same f _ _ _ _ _ _ _ (h _ ?_) _
      rw [hrd, List.take_of_length_le (Nat.le_refl _)]
      refine append_pieces hc new hch hi hp [] (p.2 ++ new) ?_ (by simp [hdata]) (by simp) (by rw [List.length_append]; omega) _ (by simp)
      intro hne
      rw [List.length_append]
      rcases hsz with hsz | hsz
      · omega
      · cases hnew : new with
        | cons x xs => simp; omega
        | nil =>
          exfalso
          apply hne
          have hcl : F.chunks.length = 1 := by have := hc.nchunks; omega
          have hin : init = [] := by rw [hch] at hcl; simp at hcl; exact hcl
          subst hin
          have : p.2 = [] := List.length_eq_zero_iff.1 (by omega)
          rw [hdata, this, hnew]; rfl
    · rename_i hgt
      refine growBy_same f _ _ _ _ _ _ _ _ _ _ _ ?_ _
      intro k c l hcal
      have hnp : 0 ≤ F.header.chunk_size - p.2.length := by omega
      obtain ⟨B, hB⟩ := Int.eq_ofNat_of_zero_le hnp
      rw [hB] at hcal hgt ⊢
      obtain ⟨h1, h2, -, h4, h4', h5, h6⟩ := C02_chunking_covers _ _ _ _ _ hcal
      obtain ⟨g1, v, g2, g3, g4, g5⟩ := h6 (by omega)
      have hv : v = F.header.chunk_size := by
        rcases g2 with g2 | ⟨s, g2, -⟩ <;> cases g2
        rfl
      subst hv
      obtain ⟨C, rfl⟩ := Int.eq_ofNat_of_zero_le (show 0 ≤ c by omega)
      obtain ⟨l, rfl⟩ := Int.eq_ofNat_of_zero_le (show 0 ≤ l by omega)
      obtain ⟨j, hj⟩ := Int.eq_ofNat_of_zero_le (show 0 ≤ k - 1 by omega)
      have hlen : (new.drop B).length = j * C + l := by
        rw [hj] at h1
        have : ((C * j + l : Nat) : Int) = new.length - B := by rw [Int.natCast_add, Int.natCast_mul]; exact h1
        rw [Nat.mul_comm, List.length_drop]; omega
      obtain ⟨ini, tl, s', e1, e2, e3, e4, e5⟩ := readMany_chunks C l j (new.take B) (new.drop B) [] hlen
      have hit : (plainFPSource (({ data := new } : FP).read B).2 C l k).items = ini ++ [tl] := by
        rw [hrd]
        show (readMany (List.replicate (k - 1).toNat (C : Int) ++ [(l : Int)]) (Z (new.take B) (new.drop B) [])).1 = _
        rw [hj, Int.toNat_natCast, e1]
      have key : ∀ d ∈ ((p.2 ++ new.take B) :: ini) ++ [tl], Spec.Piece (F.data ++ new) (.int F.header.chunk_size) d := by
        refine append_pieces hc new hch hi hp ((p.2 ++ new.take B) :: ini) tl (by omega) ?_ ?_ (by omega)
        · have : (init.map (·.2) ++ ((p.2 ++ new.take B) :: ini ++ [tl])).flatten =
              (init.map (·.2)).flatten ++ (p.2 ++ (new.take B ++ (ini ++ [tl]).flatten)) := by simp
          rw [this, e5, List.take_append_drop, hdata]
          simp
        · intro d hd
          rcases List.mem_cons.1 hd with rfl | hd
          · rw [List.length_append, List.length_take]; omega
          · have hj1 : 0 < ini.length := List.length_pos_of_mem hd
            rw [e3 d hd]
            by_cases hbig : F.header.chunk_size ≤ new.length - B
            · exact g4 hbig
            · have := g5 1 (by omega)
              omega
      rw [hit]
      refine ⟨h _ (key _ ?_), fun x hx => h _ (key _ ?_)⟩
      · rw [hrd]; simp
      · rw [List.cons_append]; exact List.mem_cons_of_mem _ hx

/-- C92, put differently: to append, blosc is never given more than the chunk size of the file. -/
theorem C92_append_size (E : Env μ) (L : E.Laws) (f : Bytes → BloscArgs → Except Err Bytes) (F : File μ) (hc : F.Conforming E) (hnn : F.NoNull)
    (new : Bytes) (args : AppendArgs)
    (h : ∀ (d : Bytes) (a : BloscArgs), (d.length : Int) ≤ F.header.chunk_size → f d a = E.compress d a) :
    appendFile (E.withCompress f) (F.bytes E) new args = appendFile E (F.bytes E) new args := by
  refine C92_append E L f F hc hnn new args (fun d hd => h d _ ?_)
  have h0 : 0 ≤ F.header.chunk_size := by rcases hc.sizes with h | h <;> omega
  by_cases hz : d = []
  · subst hz; exact h0
  · obtain ⟨w, hw, hl⟩ := hd.small.2.2 hz
    rcases hw with hw | ⟨s, hw, -⟩
    · injection hw with hw; omega
    · cases hw

/-- blosc that refuses everything larger than two bytes makes no difference when five bytes are packed in chunks of two and two more are
appended; for chunks of three it does -/
example : (let f : Bytes → BloscArgs → Except Err Bytes := fun d a => if d.length ≤ 2 then Toy.env.compress d a else .error .valueError
    (packBytesToBytes Toy.env [1, 2, 3, 4, 5] (.int 2) none {} {} {}).toOption.map (fun x =>
      [decide (packBytesToBytes (Toy.env.withCompress f) [1, 2, 3, 4, 5] (.int 2) none {} {} {} = .ok x),
       decide ((appendFile (Toy.env.withCompress f) x [6, 7] {}).1 = .ok ()),
       decide ((appendFile (Toy.env.withCompress f) x [6, 7] {}).2.data = (appendFile Toy.env x [6, 7] {}).2.data),
       decide (packBytesToBytes (Toy.env.withCompress f) [1, 2, 3, 4, 5] (.int 3) none {} {} {} = .error .valueError)])) =
    some [true, true, true, true] := by decide +kernel

end Bloscpack
