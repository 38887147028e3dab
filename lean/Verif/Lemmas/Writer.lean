import Verif.Lemmas.Reader
import Verif.Model.Append
/-
What the writing functions write.
-/
namespace Bloscpack
variable {μ : Type}

/-! ### sequences of writes -/

/-- the log entries of consecutive writes starting at `p` -/
def seqLog : Nat → List Bytes → List (Nat × Bytes)
  | _, [] => []
  | p, b :: bs => (p, b) :: seqLog (p + b.length) bs

theorem seqLog_append (p : Nat) (a b : List Bytes) :
    seqLog p (a ++ b) = seqLog p a ++ seqLog (p + a.flatten.length) b := by
  induction a generalizing p with
  | nil => simp [seqLog]
  | cons x xs ih => simp [seqLog, ih, Nat.add_assoc]

/-- the file after the consecutive writes `bss` to `Z A R l` -/
def wrote (A R : Bytes) (l : List (Nat × Bytes)) (bss : List Bytes) : FP :=
  Z (A ++ bss.flatten) (R.drop bss.flatten.length) (l ++ seqLog A.length bss)

theorem wrote_nil (A R l) : wrote A R l [] = Z A R l := by simp [wrote, seqLog]

theorem fpWrite_wrote (A R l bss b) : fpWrite b (wrote A R l bss) = (.ok (), wrote A R l (bss ++ [b])) := by
  unfold wrote
  rw [fpWrite_Z]
  simp [seqLog_append, seqLog]

theorem wrote_tell (A R l bss) : (wrote A R l bss).tell = A.length + bss.flatten.length := by
  simp [wrote, FP.tell]

theorem wrote_writable_tell (A R l bss) : Writable.tell (wrote A R l bss) = A.length + bss.flatten.length :=
  wrote_tell A R l bss

theorem writeZeros_wrote (A R l bss) (n : Nat) :
    writeZeros n (wrote A R l bss) = (.ok (), wrote A R l (bss ++ List.replicate n [0])) := by
  induction n generalizing bss with
  | zero => simp [writeZeros]
  | succ n ih =>
    unfold writeZeros
    rw [Proc.bind_of_ok (fpWrite_wrote A R l bss [0]), ih]
    simp [List.replicate_succ]

theorem flatten_replicate_single (n : Nat) : (List.replicate n ([0] : Bytes)).flatten = List.replicate n 0 := by
  induction n with
  | zero => rfl
  | succ n ih => simp [List.replicate_succ, ih]

/-- the writes for one chunk -/
def chunkWrites (impl : Hash) (c : Bytes) : List Bytes :=
  c :: (if (impl.function c).length > 0 then [impl.function c] else [])

theorem chunkWrites_flatten (impl : Hash) (c : Bytes) : (chunkWrites impl c).flatten = c ++ impl.function c := by
  unfold chunkWrites
  split
  · simp
  · have : impl.function c = [] := by apply List.eq_nil_of_length_eq_zero; omega
    simp [this]

theorem writeCompressedChunk_wrote (impl : Hash) (A R l bss c) :
    writeCompressedChunk c (impl.function c) (wrote A R l bss) = (.ok (), wrote A R l (bss ++ chunkWrites impl c)) := by
  unfold writeCompressedChunk chunkWrites
  rw [Proc.bind_of_ok (fpWrite_wrote A R l bss c)]
  split
  · rw [fpWrite_wrote]; simp
  · simp

/-! ### metadata -/

theorem utf8_ascii (s : List Char) (h : ∀ c ∈ s, c.toNat < 128) : (encodeUtf8 s).length = s.length := by
  unfold encodeUtf8
  induction s with
  | nil => rfl
  | cons c cs ih =>
    have hc := h c List.mem_cons_self
    have : (String.utf8EncodeChar c).length = 1 := by
      rw [String.length_utf8EncodeChar]
      apply Char.utf8Size_eq_one_iff.2
      have : c.val.toNat < 128 := hc
      rw [UInt32.le_iff_toNat_le]
      show c.val.toNat ≤ 127
      omega
    simp [ih (fun c hc => h c (List.mem_cons_of_mem _ hc)), this]; omega

/-- the section described by what `_write_metadata` prepared: everything the theorems need to know about it -/
structure Prepared (E : Env μ) (md : Option μ) (args : MetadataArgs) (S : MetaSection) (sec : Section μ) : Prop where
  valid : sec.Valid E
  metadata : sec.metadata = md
  header : S.header = sec.header.bytes
  body : S.body = sec.body
  prealloc : S.prealloc = sec.prealloc
  args_checksum : S.args.meta_checksum = sec.header.meta_checksum
  digest : S.digest = (sec.impl E).function sec.body
  digestSize : S.digestSize = (sec.impl E).size
  raw : ∃ s, E.dumps md = .ok s ∧ sec.header.meta_size = (encodeUtf8 s).length ∧
    sec.body.length ≤ (encodeUtf8 s).length ∧
    (sec.header.meta_codec = "None" ∧ sec.body = encodeUtf8 s ∨
     sec.header.meta_codec = "zlib" ∧ args.meta_codec = "zlib" ∧ E.zcompress (encodeUtf8 s) args.meta_level = .ok sec.body) ∧
    (sec.header.meta_codec = "None" → args.meta_codec = "None" ∨ ∃ c, E.zcompress (encodeUtf8 s) args.meta_level = .ok c ∧
      (encodeUtf8 s).length < c.length) ∧
    args.effectiveMaxMetaSize (encodeUtf8 s).length = .ok sec.header.max_meta_size
  level : sec.header.meta_level = args.meta_level
  checksum : sec.header.meta_checksum = args.meta_checksum
  args_eq : S.args = { args with meta_codec := sec.header.meta_codec }

theorem args_keys_ok : checkArgs metadataArgKeys metadataArgKeys = .ok () := by decide

theorem prepareMetadata_ok {E : Env μ} (L : E.Laws) {metadata : Option μ} {args : MetadataArgs} {S : MetaSection}
    (h : prepareMetadata E metadata args = .ok S) : ∃ sec, Prepared E metadata args S sec := by
  unfold prepareMetadata at h
  simp only [args_keys_ok, Except.ok_bind'] at h
  rw [Except.bind_ok_iff] at h
  obtain ⟨_, hser, h⟩ := h
  rw [Except.bind_ok_iff] at h
  obtain ⟨s, hdump, h⟩ := h
  have hlen : (s.length : Int) = (encodeUtf8 s).length := by rw [utf8_ascii s (L.dumps_ascii _ _ hdump)]
  have hmagic : args.magic_format = [74, 83, 79, 78] := by
    unfold serializerLookup at hser
    split at hser
    · rename_i hm; simpa [serializersAvail] using hm
    · cases hser
  rw [Except.bind_ok_iff] at h
  obtain ⟨⟨body, comp, args'⟩, hbody, h⟩ := h
  -- the three ways the body is chosen
  have key : (comp : Int) = body.length ∧ body.length ≤ (encodeUtf8 s).length ∧
      args' = { args with meta_codec := args'.meta_codec } ∧
      (args'.meta_codec = "None" ∧ body = encodeUtf8 s ∨
        args'.meta_codec = "zlib" ∧ args.meta_codec = "zlib" ∧ E.zcompress (encodeUtf8 s) args.meta_level = .ok body) ∧
      (args'.meta_codec = "None" → args.meta_codec = "None" ∨ ∃ c, E.zcompress (encodeUtf8 s) args.meta_level = .ok c ∧
        (encodeUtf8 s).length < c.length) := by
    by_cases hsc : args.shouldCompress = true
    · rw [if_pos hsc] at hbody
      have hcn : args.meta_codec ≠ "None" := by simpa [MetadataArgs.shouldCompress] using hsc
      rw [Except.bind_ok_iff] at hbody
      obtain ⟨c, hc, hbody⟩ := hbody
      unfold codecCompress at hc
      rw [if_neg hcn] at hc
      split at hc
      · rename_i hz
        split at hbody
        · rename_i hlt
          simp only [Except.pure_eq, Except.ok.injEq, Prod.mk.injEq] at hbody
          obtain ⟨rfl, rfl, rfl⟩ := hbody
          exact ⟨hlen, Nat.le_refl _, rfl, .inl ⟨rfl, rfl⟩, fun _ => .inr ⟨c, hc, by omega⟩⟩
        · rename_i hlt
          simp only [Except.pure_eq, Except.ok.injEq, Prod.mk.injEq] at hbody
          obtain ⟨rfl, rfl, rfl⟩ := hbody
          exact ⟨rfl, by omega, rfl, .inr ⟨hz, hz, hc⟩, fun h => absurd h hcn⟩
      · cases hc
    · rw [if_neg hsc] at hbody
      have hcn : args.meta_codec = "None" := by
        have : ¬ args.shouldCompress = true := hsc
        simpa [MetadataArgs.shouldCompress] using this
      simp only [Except.pure_eq, Except.ok.injEq, Prod.mk.injEq] at hbody
      obtain ⟨rfl, rfl, rfl⟩ := hbody
      exact ⟨hlen, Nat.le_refl _, rfl, .inl ⟨hcn, rfl⟩, fun h => .inl h⟩
  obtain ⟨hcomp, hble, hargs, hcodec, hopp⟩ := key
  simp only at h
  rw [Except.bind_ok_iff] at h
  obtain ⟨mx, hmx, h⟩ := h
  split at h
  · simp at h
  rename_i hfits
  simp only [Except.bind_ok_iff] at h
  obtain ⟨hh, hnew, hdr, henc, ⟨dig, dsz⟩, hdig, hS⟩ := h
  simp only [Except.pure_eq, Except.ok.injEq] at hS
  obtain ⟨hok, rfl⟩ := (MetadataHeader.new_iff _ _).1 hnew
  rw [MetadataHeader.encode_ok hok] at henc
  cases henc
  subst hS
  generalize hH : (MetadataHeader.mk args'.magic_format createMetadataOptions args'.meta_checksum args'.meta_codec
    args'.meta_level s.length mx comp []) = H at hok
  have hHk : H.meta_codec = args'.meta_codec := by rw [← hH]
  have hHc : H.meta_checksum = args'.meta_checksum := by rw [← hH]
  have hload : Spec.MetaHolds E H.meta_codec body metadata := by
    rw [hHk]
    rcases hcodec with ⟨h1, rfl⟩ | ⟨h1, h2, h3⟩
    · exact .inl ⟨h1, L.loads_dumps _ _ hdump⟩
    · exact .inr ⟨h1, _, L.zdecompress_zcompress _ _ _ h3, L.loads_dumps _ _ hdump⟩
  have hchk : args'.meta_checksum ∈ Spec.checksumNames := hHc ▸ hok.2.2.1
  obtain ⟨impl, himpl, hnm, -⟩ := checksumLookup_of (hl := E.hashlib) hchk
  let sec : Section μ := ⟨H, body, metadata⟩
  have hsi : sec.impl E = impl := by simp [Section.impl, sec, hHc, himpl]
  have hd : dig = impl.function body ∧ dsz = impl.size := by
    split at hdig
    · rw [himpl] at hdig
      simp only [Except.ok_bind', Except.pure_eq, Except.ok.injEq, Prod.mk.injEq] at hdig
      exact ⟨hdig.1.symm, hdig.2.symm⟩
    · rename_i hn
      simp only [Except.pure_eq, Except.ok.injEq, Prod.mk.injEq] at hdig
      have hz : impl.size = 0 := by
        rw [Hash.size_zero (checksumLookup_mem himpl).1, hnm]; exact Decidable.not_not.1 hn
      rw [function_none (checksumLookup_mem himpl).1 hz, hz]
      exact ⟨hdig.1.symm, hdig.2.symm⟩
  refine ⟨sec, ?_⟩
  subst hH
  constructor
  · exact { ok := hok, magic := by rw [← hmagic]; show args'.magic_format = _; rw [hargs], user := rfl, size := hcomp,
            fits := by show comp ≤ mx; omega, load := hload }
  · rfl
  · rfl
  · rfl
  · rfl
  · rfl
  · rw [hsi]; exact hd.1
  · rw [hsi]; exact hd.2
  · refine ⟨s, hdump, hlen, hble, hcodec, hopp, ?_⟩
    rw [← hlen]
    have : args'.max_meta_size = args.max_meta_size := by rw [hargs]
    show args.effectiveMaxMetaSize s.length = .ok mx
    unfold MetadataArgs.effectiveMaxMetaSize at hmx ⊢
    rw [← this]; exact hmx
  · show args'.meta_level = _; rw [hargs]
  · show args'.meta_checksum = _; rw [hargs]
  · exact hargs

/-- the writes of a metadata section -/
def secWrites (E : Env μ) (s : Section μ) : List Bytes :=
  [s.header.bytes, s.body] ++ List.replicate s.prealloc [0] ++
    (if s.header.meta_checksum ≠ "None" then [(s.impl E).function s.body] else [])

theorem secWrites_flatten {E : Env μ} {s : Section μ} (hv : s.Valid E) : (secWrites E s).flatten = s.bytes E := by
  unfold secWrites Section.bytes
  by_cases hn : s.header.meta_checksum ≠ "None"
  · simp [if_pos hn]
  · have hz : (s.impl E).function s.body = [] := by
      obtain ⟨-, h2, h3⟩ := Section.lookup hv
      exact function_none h2 (by rw [Hash.size_zero h2, h3]; exact Decidable.not_not.1 hn) _
    simp [if_neg hn, hz]

theorem writeMetadata_wrote {E : Env μ} (L : E.Laws) {metadata : Option μ} {args : MetadataArgs} {S : MetaSection}
    {sec : Section μ} (hS : prepareMetadata E metadata args = .ok S) (hp : Prepared E metadata args S sec) (A R l bss) :
    writeMetadata E metadata args (wrote A R l bss) =
      (.ok ((sec.bytes E).length, S.args), wrote A R l (bss ++ secWrites E sec)) := by
  unfold writeMetadata
  rw [Proc.bind_of_ok (Proc.ofExcept_apply _ _ |>.trans (by rw [hS])), Proc.bind_of_ok (fpWrite_wrote _ _ _ _ _),
    Proc.bind_of_ok (fpWrite_wrote _ _ _ _ _), Proc.bind_of_ok (writeZeros_wrote _ _ _ _ _), hp.args_checksum]
  have hlen := Hash.size_eq L (Section.lookup hp.valid).2.1 sec.body
  by_cases hn : sec.header.meta_checksum ≠ "None"
  · rw [if_pos hn, Proc.bind_of_ok (fpWrite_wrote _ _ _ _ _)]
    simp [secWrites, hn, hp.header, hp.body, hp.prealloc, hp.digest, hp.digestSize, Section.bytes,
      MetadataHeader.bytes_length, hlen, METADATA_HEADER_LENGTH]
    omega
  · have hz : (sec.impl E).size = 0 := by
      rw [Hash.size_zero (Section.lookup hp.valid).2.1, (Section.lookup hp.valid).2.2]; exact Decidable.not_not.1 hn
    rw [if_neg hn]
    simp [secWrites, hn, hp.header, hp.body, hp.prealloc, Section.bytes, MetadataHeader.bytes_length, hlen, hz,
      METADATA_HEADER_LENGTH]
    omega

/-! ### chunks -/

/-- state of a file sink whose file was written by `bss` -/
theorem put_wrote {E : Env μ} {s : FPSink} (hi : s.impl ∈ checksums E.hashlib) {A R l bss} (hfp : s.fp = wrote A R l bss)
    (i : Nat) (c : Bytes) (hidx : s.header.offsets = true → i < s.offset_storage.length) :
    FPSink.put i c s = (.ok (), { s with
      fp := wrote A R l (bss ++ chunkWrites s.impl c)
      offset_storage := if s.header.offsets then s.offset_storage.set i ((A.length + bss.flatten.length : Nat) : Int)
        else s.offset_storage }) := by
  unfold FPSink.put
  rw [Proc.bind_of_ok (Proc.get_apply s), hfp, wrote_writable_tell, doChecksum_eq hi]
  have h1 : FPSink.onFP (writeCompressedChunk c (s.impl.function c)) s =
      (.ok (), { s with fp := wrote A R l (bss ++ chunkWrites s.impl c) }) := by
    unfold FPSink.onFP
    rw [hfp, writeCompressedChunk_wrote]
  rw [Proc.bind_of_ok h1]
  cases ho : s.header.offsets with
  | false => simp
  | true =>
    simp only [if_true]
    rw [Proc.bind_of_ok (Proc.ofExcept_apply _ _ |>.trans (by rw [setItem, if_pos (hidx ho)]))]
    rfl

theorem appendLoop_eq (E : Env μ) (a : BloscArgs) (i : Nat) (ds : List Bytes) :
    appendLoop E a i ds = packLoop E (compressedFPSink E) a i ds := by
  induction ds generalizing i with
  | nil => rfl
  | cons d ds ih => simp only [appendLoop, packLoop, ih]; rfl

/-- the writes of a list of chunks -/
def chunksWrites (impl : Hash) (cs : List Bytes) : List Bytes := cs.flatMap (chunkWrites impl)

theorem chunksWrites_flatten (impl : Hash) (cs : List Bytes) :
    (chunksWrites impl cs).flatten = Spec.records impl.function cs := by
  induction cs with
  | nil => rfl
  | cons c cs ih =>
    simp only [chunksWrites, List.flatMap_cons, List.flatten_append, chunkWrites_flatten, records_cons]
    rw [← ih]; rfl

/-- the sink after writing the chunks `cs`, whose offsets go after the entries `pre` -/
def afterChunks (s : FPSink) (A R : Bytes) (l : List (Nat × Bytes)) (bss : List Bytes)
    (pre post : List Int) (cs : List Bytes) : FPSink :=
  { s with
    fp := wrote A R l (bss ++ chunksWrites s.impl cs)
    offset_storage := if s.header.offsets then
        pre ++ (Spec.positions s.impl.function (A.length + bss.flatten.length) cs ++ post.drop cs.length)
      else pre ++ post }

theorem packLoop_wrote {E : Env μ} (a : BloscArgs) (ds : List Bytes) (s : FPSink) (hi : s.impl ∈ checksums E.hashlib)
    {A R l bss} (hfp : s.fp = wrote A R l bss) (pre post : List Int) (hst : s.offset_storage = pre ++ post)
    (hidx : s.header.offsets = true → ds.length ≤ post.length) :
    (∃ chs : List (Bytes × Bytes), chs.map (·.2) = ds ∧ (∀ p ∈ chs, E.compress p.2 a = .ok p.1) ∧
      packLoop E (compressedFPSink E) a pre.length ds s =
        (.ok (), afterChunks s A R l bss pre post (chs.map (·.1)))) ∨
    (∃ (chs : List (Bytes × Bytes)) (d : Bytes) (rest : List Bytes) (e : Err), chs.map (·.2) ++ d :: rest = ds ∧
      (∀ p ∈ chs, E.compress p.2 a = .ok p.1) ∧ E.compress d a = .error e ∧
      packLoop E (compressedFPSink E) a pre.length ds s =
        (.error e, afterChunks s A R l bss pre post (chs.map (·.1)))) := by
  induction ds generalizing s bss pre post with
  | nil =>
    refine .inl ⟨[], rfl, by simp, ?_⟩
    have : afterChunks s A R l bss pre post [] = s := by
      have h2 : (if s.header.offsets = true then pre ++ post else pre ++ post) = s.offset_storage := by rw [hst]; split <;> rfl
      cases s; simp at hst; simp [afterChunks, chunksWrites, Spec.positions, ← hfp, hst]
    simp [packLoop, this]
  | cons d ds ih =>
    cases hc : E.compress d a with
    | error e =>
      refine .inr ⟨[], d, ds, e, rfl, by simp, hc, ?_⟩
      have : afterChunks s A R l bss pre post [] = s := by
        have h2 : (if s.header.offsets = true then pre ++ post else pre ++ post) = s.offset_storage := by
          rw [hst]; split <;> rfl
        cases s; simp at hst; simp [afterChunks, chunksWrites, Spec.positions, ← hfp, hst]
      unfold packLoop
      rw [Proc.bind_of_error (Proc.ofExcept_apply _ _ |>.trans (by rw [hc]))]
      simp [this]
    | ok c =>
      have hput := put_wrote (E := E) hi hfp pre.length c (by
        intro ho; have := hidx ho; rw [hst]; simp at this ⊢; omega)
      -- the state after this chunk, with one more entry in `pre`
      let s' : FPSink := { s with
        fp := wrote A R l (bss ++ chunkWrites s.impl c)
        offset_storage := if s.header.offsets then s.offset_storage.set pre.length ((A.length + bss.flatten.length : Nat) : Int)
          else s.offset_storage }
      have hstep : packLoop E (compressedFPSink E) a pre.length (d :: ds) s =
          packLoop E (compressedFPSink E) a (pre.length + 1) ds s' := by
        show (Proc.ofExcept (E.compress d a) >>= _) s = _
        rw [Proc.bind_of_ok (Proc.ofExcept_apply _ _ |>.trans (by rw [hc]))]
        show (FPSink.put pre.length c >>= _) s = _
        rw [Proc.bind_of_ok hput]
      have hlenf : (bss ++ chunkWrites s.impl c).flatten.length = bss.flatten.length + (c.length + (s.impl.function c).length) := by
        rw [List.flatten_append, List.length_append, chunkWrites_flatten, List.length_append]
      cases hoff : s.header.offsets with
      | true =>
        have hidx' := hidx hoff
        obtain ⟨x, post', rfl⟩ : ∃ x post', post = x :: post' := by
          cases post with
          | nil => simp at hidx'
          | cons x xs => exact ⟨x, xs, rfl⟩
        have hst' : s'.offset_storage = (pre ++ [((A.length + bss.flatten.length : Nat) : Int)]) ++ post' := by
          simp only [s', hoff, if_true, hst]
          simp
        have hkey : ∀ cs, afterChunks s' A R l (bss ++ chunkWrites s.impl c)
            (pre ++ [((A.length + bss.flatten.length : Nat) : Int)]) post' cs =
            afterChunks s A R l bss pre (x :: post') (c :: cs) := by
          intro cs
          simp only [afterChunks, s', hoff, if_true, hlenf, chunksWrites, List.flatMap_cons, Spec.positions,
            List.length_cons, List.drop_succ_cons, List.append_assoc, List.cons_append, List.nil_append, Nat.add_assoc]
        have := ih s' (by simpa [s'] using hi) (bss := bss ++ chunkWrites s.impl c) rfl
          (pre ++ [((A.length + bss.flatten.length : Nat) : Int)]) post' hst'
          (fun _ => by simp at hidx'; omega)
        have hpl : (pre ++ [((A.length + bss.flatten.length : Nat) : Int)]).length = pre.length + 1 := by simp
        rw [hpl] at this
        rcases this with ⟨chs, h1, h2, h3⟩ | ⟨chs, d', rest, e, h1, h2, h3, h4⟩
        · refine .inl ⟨(c, d) :: chs, by simp [h1], ?_, ?_⟩
          · intro p hp; rcases List.mem_cons.1 hp with rfl | hp
            · exact hc
            · exact h2 p hp
          · rw [hstep, h3, hkey]; rfl
        · refine .inr ⟨(c, d) :: chs, d', rest, e, by simp [h1], ?_, h3, ?_⟩
          · intro p hp; rcases List.mem_cons.1 hp with rfl | hp
            · exact hc
            · exact h2 p hp
          · rw [hstep, h4, hkey]; rfl
      | false =>
        -- without offsets the storage is untouched; any split of it does
        have hgen : ∀ (i : Nat), i = pre.length + 1 →
            packLoop E (compressedFPSink E) a (pre.length + 1) ds s' = packLoop E (compressedFPSink E) a i ds s' := by
          rintro i rfl; rfl
        have hany : ∀ (i j : Nat) (ds : List Bytes) (t : FPSink), t.header.offsets = false →
            packLoop E (compressedFPSink E) a i ds t = packLoop E (compressedFPSink E) a j ds t := by
          intro i j ds
          induction ds generalizing i j with
          | nil => intros; rfl
          | cons d ds ih2 =>
            intro t ht
            show (Proc.ofExcept (E.compress d a) >>= _) t = (Proc.ofExcept (E.compress d a) >>= _) t
            cases E.compress d a with
            | error e => rfl
            | ok c =>
              rw [Proc.bind_of_ok (Proc.ofExcept_apply _ _), Proc.bind_of_ok (Proc.ofExcept_apply _ _)]
              show (FPSink.put i c >>= _) t = (FPSink.put j c >>= _) t
              have hpp : FPSink.put i c t = FPSink.put j c t := by
                unfold FPSink.put
                rw [Proc.bind_of_ok (Proc.get_apply t), Proc.bind_of_ok (Proc.get_apply t)]
                simp only [ht]
                rfl
              have hoffs : ∀ r t', FPSink.put j c t = (r, t') → t'.header.offsets = false := by
                intro r t' hr
                unfold FPSink.put at hr
                rw [Proc.bind_of_ok (Proc.get_apply t)] at hr
                simp only [ht] at hr
                rw [Proc.bind_apply] at hr
                simp only [FPSink.onFP] at hr
                split at hr
                · rename_i heq; simp at hr heq; rw [← hr.2, ← heq.2]; exact ht
                · rename_i heq; simp at hr heq; rw [← hr.2, ← heq.2]; exact ht
              rw [Proc.bind_apply, Proc.bind_apply, hpp]
              cases hr : FPSink.put j c t with
              | mk r t' =>
                cases r with
                | error e => rfl
                | ok u => exact ih2 (i + 1) (j + 1) t' (hoffs _ _ hr)
        have hs'off : s'.header.offsets = false := hoff
        have hst' : s'.offset_storage = pre ++ post := by simp [s', hoff, hst]
        have hkey : ∀ cs, afterChunks s' A R l (bss ++ chunkWrites s.impl c) pre post cs =
            afterChunks s A R l bss pre post (c :: cs) := by
          intro cs
          simp only [afterChunks, s', hoff, chunksWrites, List.flatMap_cons, List.append_assoc]
          rfl
        have := ih s' (by simpa [s'] using hi) (bss := bss ++ chunkWrites s.impl c) rfl pre post hst'
          (fun h => by rw [hs'off] at h; cases h)
        rcases this with ⟨chs, h1, h2, h3⟩ | ⟨chs, d', rest, e, h1, h2, h3, h4⟩
        · refine .inl ⟨(c, d) :: chs, by simp [h1], ?_, ?_⟩
          · intro p hp; rcases List.mem_cons.1 hp with rfl | hp
            · exact hc
            · exact h2 p hp
          · rw [hstep, hany _ pre.length _ _ hs'off, h3, hkey]; rfl
        · refine .inr ⟨(c, d) :: chs, d', rest, e, by simp [h1], ?_, h3, ?_⟩
          · intro p hp; rcases List.mem_cons.1 hp with rfl | hp
            · exact hc
            · exact h2 p hp
          · rw [hstep, hany _ pre.length _ _ hs'off, h4, hkey]; rfl

/-! ### offsets -/

theorem encodeOffsets_iff (os : List Int) (raw : Bytes) :
    encodeOffsets os = .ok raw ↔ (∀ o ∈ os, -2 ^ 63 ≤ o ∧ o ≤ 2 ^ 63 - 1) ∧ raw = Spec.int64s os := by
  induction os generalizing raw with
  | nil => simp [encodeOffsets, eq_comm]
  | cons o os ih =>
    have h8 : ∀ b, encodeInt64 o = .ok b ↔ (-2 ^ 63 ≤ o ∧ o ≤ 2 ^ 63 - 1) ∧ b = Spec.leBytes 8 o := by
      intro b
      rw [show encodeInt64 o = packSigned 8 o from rfl, packSigned_iff]
      constructor
      · rintro ⟨h1, h2, h3⟩; exact ⟨by omega, h3⟩
      · rintro ⟨h1, h3⟩; exact ⟨by omega, by omega, h3⟩
    simp only [encodeOffsets, Except.bind_ok_iff, h8, ih, Except.pure_eq, Except.ok.injEq, int64s_cons,
      List.mem_cons, forall_eq_or_imp]
    constructor
    · rintro ⟨b, ⟨h1, rfl⟩, bs, ⟨h2, rfl⟩, rfl⟩; exact ⟨⟨h1, h2⟩, rfl⟩
    · rintro ⟨⟨h1, h2⟩, rfl⟩; exact ⟨_, ⟨h1, rfl⟩, _, ⟨h2, rfl⟩, rfl⟩

theorem repeatList_eq (b : Bytes) (n : Int) : repeatList b n = (List.replicate n.toNat b).flatten := rfl

theorem int64s_replicate (n : Nat) (v : Int) :
    Spec.int64s (List.replicate n v) = (List.replicate n (Spec.leBytes 8 v)).flatten := by
  induction n with
  | zero => rfl
  | succ n ih => simp [List.replicate_succ, ih]

theorem repeatList_single (v : Int) (n : Int) : repeatList [v] n = List.replicate n.toNat v := by
  unfold repeatList
  induction n.toNat with
  | zero => rfl
  | succ n ih => simp [List.replicate_succ, ih]

end Bloscpack
