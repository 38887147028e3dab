import Verif.Props.History
import Verif.Spec.Canonical

/-! C97: an archive that was changed any number of times is the archive that packing everything at once would have made. -/
namespace Bloscpack
variable {μ : Type}

section
variable {E : Env μ}

/-- the bytes of a section, as they were prepared -/
theorem Prepared.bytes {md : Option μ} {m : MetadataArgs} {S : MetaSection} {s : Section μ} (h : Prepared E md m S s) :
    s.bytes E = S.header ++ (S.body ++ (List.replicate S.prealloc 0 ++ S.digest)) := by
  rw [h.header, h.body, h.prealloc, h.digest]; rfl

theorem SecFor.bytes_eq {md : Option μ} {m m' m'' : MetadataArgs} {sec sec' : Option (Section μ)} (h : SecFor E md m sec m') (h' : SecFor E md m sec' m'') :
    optSecBytes E sec = optSecBytes E sec' := by
  rcases h with ⟨h0, rfl, -⟩ | ⟨S, s, h1, h2, h3, rfl, -⟩
  · rcases h' with ⟨-, rfl, -⟩ | ⟨S', s', g1, -⟩
    · rfl
    · rw [h0] at g1; cases g1
  · rcases h' with ⟨g1, rfl, -⟩ | ⟨S', s', -, g2, g3, rfl, -⟩
    · rw [g1] at h1; cases h1
    · rw [h2] at g2; cases g2
      show s.bytes E = s'.bytes E
      rw [h3.bytes, g3.bytes]

/-- pieces of the same lengths with the same contents are the same -/
theorem pieces_unique {c : Nat} {init init' : List Bytes} {tl tl' : Bytes} (h1 : ∀ x ∈ init, x.length = c) (h2 : ∀ x ∈ init', x.length = c)
    (hn : init.length = init'.length) (h : (init ++ [tl]).flatten = (init' ++ [tl']).flatten) : init ++ [tl] = init' ++ [tl'] := by
  induction init generalizing init' with
  | nil =>
    cases init' with
    | nil => simpa using h
    | cons => cases hn
  | cons x init ih =>
    cases init' with
    | nil => cases hn
    | cons y init' =>
      simp only [List.cons_append, List.flatten_cons] at h
      have hl : x.length = y.length := by rw [h1 x (by simp), h2 y (by simp)]
      obtain ⟨rfl, h'⟩ := List.append_inj h hl
      rw [List.cons_append, List.cons_append, ih (fun x hx => h1 x (by simp [hx])) (fun x hx => h2 x (by simp [hx])) (by simpa using hn) h']

/-- compressed chunks are determined by the data -/
theorem chunks_determined {a : BloscArgs} {chs chs' : List (Bytes × Bytes)} (h : ∀ p ∈ chs, E.compress p.2 a = .ok p.1)
    (h' : ∀ p ∈ chs', E.compress p.2 a = .ok p.1) (he : chs.map (·.2) = chs'.map (·.2)) : chs = chs' := by
  induction chs generalizing chs' with
  | nil => cases chs' with | nil => rfl | cons => cases he
  | cons p chs ih =>
    cases chs' with
    | nil => cases he
    | cons q chs' =>
      simp only [List.map_cons, List.cons.injEq] at he
      have h1 := h p (by simp)
      rw [he.1, h' q (by simp)] at h1
      injection h1 with h1
      rw [ih (fun p hp => h p (by simp [hp])) (fun p hp => h' p (by simp [hp])) he.2]
      congr 1
      exact Prod.ext h1.symm he.1

theorem positions_nonneg (f : Bytes → Bytes) (start : Nat) (cs : List Bytes) : ∀ o ∈ Spec.positions f start cs, 0 ≤ o := by
  induction cs generalizing start with
  | nil => simp [Spec.positions]
  | cons c cs ih =>
    intro o ho
    simp only [Spec.positions, List.mem_cons] at ho
    rcases ho with rfl | ho
    · omega
    · exact ih _ o ho

/-- an archive as packing would make it, apart from what follows the last chunk -/
structure Canon (E : Env μ) (md : Option μ) (a : BloscArgs) (b : BloscpackArgs) (m : MetadataArgs) (F : File μ) : Prop where
  conf : F.Conforming E
  nonnull : F.NoNull
  sec : ∃ m', SecFor E md m F.sec m'
  comp : ∀ p ∈ F.chunks, E.compress p.2 a = .ok p.1
  offsets : F.header.offsets = b.offsets
  checksum : F.header.checksum = b.checksum
  typesize : F.header.typesize = a.typesize
  chunk : F.header.chunk_size ≤ F.data.length
  apps : b.offsets = false → F.header.max_app_chunks = 0

/-- packing the data of such an archive at once gives the archive -/
theorem Canon.pack (L : E.Laws) {md : Option μ} {a : BloscArgs} {b : BloscpackArgs} {m : MetadataArgs} {F : File μ} (hF : Canon E md a b m F) :
    packBytesToBytes E F.data (.int F.header.chunk_size) md a { b with max_app_chunks := .int F.header.max_app_chunks } m =
      .ok (F.front E ++ F.body E) := by
  have hc := hF.conf
  obtain ⟨m', hsec⟩ := hF.sec
  have hM : MAX_CHUNKS = 2 ^ 63 - 1 := by decide
  obtain ⟨c, hcalc, hcc, -⟩ := hc.chunking
  rw [hcc hF.chunk] at hcalc
  have hhdr : packHeader F.header.nchunks F.header.chunk_size F.header.last_chunk md a
      { b with max_app_chunks := .int F.header.max_app_chunks } = .ok F.header := by
    have happ : handleMaxApps b.offsets F.header.nchunks (.int F.header.max_app_chunks) = .ok F.header.max_app_chunks := by
      have h1 := hc.n_pos
      obtain ⟨-, -, -, -, -, h6, h7, h8, -⟩ := hc.ok
      cases hb : b.offsets with
      | false => rw [hF.apps hb]; exact C32_ignored _ _ _ (by omega) (by omega) (.inl rfl)
      | true =>
        rw [C32_exact true F.header.nchunks (.int F.header.max_app_chunks) F.header.max_app_chunks (by omega) (by omega) rfl (.inl rfl) h7.1
          (fun i hi => by cases hi; exact h7.2)]
        congr 1
        omega
    unfold packHeader
    rw [show handleMaxApps _ F.header.nchunks (.int F.header.max_app_chunks) = _ from happ, Except.ok_bind', BloscpackHeader.new_iff]
    have e : BloscpackHeader.mk FORMAT_VERSION b.offsets md.isSome b.checksum a.typesize F.header.chunk_size F.header.last_chunk F.header.nchunks
        F.header.max_app_chunks = F.header := by
      rw [← hF.offsets, ← hF.checksum, ← hF.typesize, hsec.isSome, ← hc.meta_flag, show FORMAT_VERSION = F.header.format_version from hc.version.symm]
    refine ⟨?_, ?_⟩
    · show BloscpackHeader.OK (BloscpackHeader.mk FORMAT_VERSION b.offsets md.isSome b.checksum a.typesize F.header.chunk_size F.header.last_chunk
        F.header.nchunks F.header.max_app_chunks)
      rw [e]; exact hc.ok
    · exact e.symm
  obtain ⟨cinit, cp, hch, hci, hcl⟩ := hc.lengths
  rw [packBytesToBytes_eq]
  rcases packBytes_run L F.data (.int F.header.chunk_size) md a { b with max_app_chunks := .int F.header.max_app_chunks } m with
    ⟨e, h1, -⟩ | ⟨n, c', l, h1, h2⟩
  · rw [hcalc] at h1; cases h1
  · rw [hcalc] at h1
    cases h1
    rcases h2 with ⟨e, h3, -⟩ | ⟨h, r, fp, init, tl, h3, h4, h5, h6, h7, h8, h9, h10, h11⟩
    · rw [hhdr] at h3; cases h3
    · rw [hhdr] at h3
      cases h3
      have hitems : init ++ [tl] = F.chunks.map (·.2) := by
        have e : F.chunks.map (·.2) = cinit.map (·.2) ++ [cp.2] := by rw [hch]; simp
        rw [e]
        have h0 : 0 ≤ F.header.chunk_size := by rcases hc.sizes with h | h <;> omega
        refine pieces_unique (c := F.header.chunk_size.toNat) (fun x hx => ?_) (fun x hx => ?_) ?_ ?_
        · have := h7 x hx; omega
        · obtain ⟨p, hp, rfl⟩ := List.mem_map.1 hx
          have := hci p hp; omega
        · have := hc.nchunks
          rw [hch] at this
          simp at this ⊢
          omega
        · rw [h9, ← e]; rfl
      have hmem : ∀ d ∈ init ++ [tl], ∃ z, E.compress d a = .ok z := by
        intro d hd
        rw [hitems] at hd
        obtain ⟨p, hp, rfl⟩ := List.mem_map.1 hd
        exact ⟨_, hF.comp p hp⟩
      have hok : ∃ x, r = .ok x := by
        cases h5 with
        | metadata e _ hm he _ =>
          rcases hsec with ⟨g, -⟩ | ⟨S, s, -, g, -⟩
          · rw [g] at hm; cases hm
          · rw [he] at g; cases g
        | space sec m' hs hb _ _ => exact absurd hb (by have := hc.offsets_small; omega)
        | chunk sec m' hs hb chs d rest e hi hcm he _ _ =>
          obtain ⟨z, hz⟩ := hmem d (by rw [← hi]; simp)
          rw [he] at hz; cases hz
        | offset sec m' hs hb chs e hi hcm ho he _ _ _ =>
          exfalso
          have e1 : chs = F.chunks := chunks_determined hcm hF.comp (by rw [hi, hitems])
          have e2 : ((baseFile F.header sec chs).front E).length = (F.front E).length := by
            have : optSecBytes E sec = F.secBytes E := hs.bytes_eq hsec
            show (F.header.bytes ++ (optSecBytes E sec ++ placeholder F.header)).length = _
            rw [this]
            simp only [File.front, List.length_append, placeholder_length, hc.offsets_len]
          rw [e2, e1] at he
          have hr := hc.reach ho
          have : encodeOffsets (Spec.positions ((baseFile F.header sec F.chunks).impl E).function (F.front E).length (F.chunks.map (·.1))) = .ok _ :=
            (encodeOffsets_iff _ _).2 ⟨fun o ho => ?_, rfl⟩
          · rw [this] at he; cases he
          · have h1 := hr o ho
            have h2 := positions_nonneg _ _ _ o ho
            omega
        | plain sec m' hs hb chs hi hcm ho _ hfp => exact ⟨_, rfl⟩
        | full sec m' hs hb chs hi hcm ho raw he _ hdd hl hp => exact ⟨_, rfl⟩
      obtain ⟨x, rfl⟩ := hok
      obtain ⟨fp', G, n', c', l', g1, g2, g3, g4, g5, g6, g7, g8, g9, g10, g11⟩ := packBytes_ok L h4
      cases g1
      rw [h4]
      simp only [if_neg g11]
      rw [g2]
      rw [g8] at hcalc
      cases hcalc
      rw [hhdr] at g9
      injection g9 with g9
      have e0 : G.header = F.header := g9.symm
      have e1 : G.chunks = F.chunks := by
        obtain ⟨ginit, gp, gch, gi, gl⟩ := g3.lengths
        refine chunks_determined g10 hF.comp ?_
        have ef : F.chunks.map (·.2) = cinit.map (·.2) ++ [cp.2] := by rw [hch]; simp
        have eg : G.chunks.map (·.2) = ginit.map (·.2) ++ [gp.2] := by rw [gch]; simp
        have h0 : 0 ≤ F.header.chunk_size := by rcases hc.sizes with h | h <;> omega
        rw [ef, eg]
        refine pieces_unique (c := F.header.chunk_size.toNat) (fun x hx => ?_) (fun x hx => ?_) ?_ ?_
        · obtain ⟨p, hp, rfl⟩ := List.mem_map.1 hx
          have := gi p hp; rw [e0] at this; omega
        · obtain ⟨p, hp, rfl⟩ := List.mem_map.1 hx
          have := hci p hp; omega
        · have k1 := hc.nchunks
          have k2 := g3.nchunks
          rw [hch] at k1; rw [gch, e0] at k2
          simp at k1 k2 ⊢
          omega
        · rw [← ef, ← eg]; exact g5
      have e2 : G.secBytes E = F.secBytes E := g7.bytes_eq hsec
      have e3 : G.impl E = F.impl E := by simp only [File.impl, e0]
      have e4 : (G.front E).length = (F.front E).length := by
        simp only [File.front, List.length_append, e0, e2, hc.offsets_len, g3.offsets_len]
      have e5 : G.offsets = F.offsets := by
        cases ho : F.header.offsets with
        | true => rw [hc.table ho, g3.table (by rw [e0]; exact ho), e4, e3, e1, e0]
        | false =>
          have k1 := hc.offsets_len; have k2 := g3.offsets_len
          unfold offsetsLen at k1 k2
          rw [e0] at k2
          simp [ho] at k1 k2
          rw [k1, k2]
      simp only [File.bytes, File.front, File.body, e0, e1, e2, e3, e5, g4, List.append_nil]

theorem Spec.Means.filled {x : AppendArgs} {a : BloscArgs} (h : Spec.Means x a) {hd : BloscpackHeader} (ht : hd.typesize = a.typesize) :
    x.filled hd = a := by
  obtain ⟨h1, h2, h3, h4⟩ := h
  have h5 : x.typesize.getD hd.typesize = a.typesize := by
    rcases h1 with h | h
    · rw [h]; exact ht
    · rw [h]; rfl
  unfold AppendArgs.filled
  rw [h2, h3, h4, h5]

/-- an append with the same settings keeps the archive canonical -/
theorem Canon.append (L : E.Laws) {md : Option μ} {a : BloscArgs} {b : BloscpackArgs} {m : MetadataArgs} {F : File μ} (hF : Canon E md a b m F)
    {new : Bytes} {x : AppendArgs} (hx : Spec.Means x a) {k : Int} {fp : FP}
    (hrun : appendFp E { data := new } new.length x { data := F.bytes E } = (.ok k, fp)) :
    ∃ F', fp.data = F'.bytes E ∧ Canon E md a b m F' ∧ F'.data = F.data ++ new ∧ F'.header.chunk_size = F.header.chunk_size ∧
      F'.header.nchunks + F'.header.max_app_chunks = F.header.nchunks + F.header.max_app_chunks ∧
      (Spec.LongerIsLonger E a → F.junk = [] → F'.junk = []) ∧ F'.sec = F.sec := by
  have hc := hF.conf
  have ho : F.header.offsets = true := by
    cases ho : F.header.offsets with
    | true => rfl
    | false => have := append_no_offsets L hc.toPre ho { data := new } new.length x []; rw [hrun] at this; cases this
  obtain ⟨init, p, hch, hlast, h⟩ := append_cases L hc ho hF.nonnull hrun
  rcases h with ⟨e, h, -⟩ | ⟨chs, q, k', hg, ⟨hreach, hr, hd, -⟩ | ⟨-, ⟨e, h⟩, -⟩⟩
  · cases h
  · cases hr
    rw [hx.filled hF.typesize] at hg
    refine ⟨_, hd, ⟨hg.conforming L hc ho hch hreach _, hF.nonnull, hF.sec, ?_, hF.offsets, hF.checksum, hF.typesize, ?_, ?_⟩, hg.data hch _, rfl, ?_, ?_, rfl⟩
    · intro r hr
      rcases List.mem_append.1 hr with hr | hr
      · exact hF.comp r (by rw [hch]; exact List.mem_append_left _ hr)
      · exact hg.comp r hr
    · rw [hg.data hch _, List.length_append]
      have := hF.chunk
      show F.header.chunk_size ≤ _
      omega
    · intro hb; rw [hF.offsets, hb] at ho; cases ho
    · show F.header.nchunks + _ + (F.header.max_app_chunks - _) = _
      omega
    · intro hl hj
      show List.drop _ _ = []
      apply List.drop_of_length_le
      rw [hj, List.append_nil]
      have hsz : ∀ z, ((F.impl E).function z).length = (F.impl E).size := fun z => Hash.size_eq L (File.lookup hc.toPre).2.1 z
      obtain ⟨r, rest, hr, hpre⟩ : ∃ r rest, chs ++ [q] = r :: rest ∧ p.2.length ≤ r.2.length := by
        cases hchs : chs with
        | nil =>
          refine ⟨q, [], rfl, ?_⟩
          have := hg.content
          rw [hchs] at this
          simp at this
          rw [this]; simp
        | cons r chs' =>
          refine ⟨r, chs' ++ [q], rfl, ?_⟩
          have h1 := hg.full r (by rw [hchs]; simp)
          rcases hc.sizes with h | h <;> omega
      have h1 : E.compress r.2 a = .ok r.1 := hg.comp r (by rw [hr]; simp)
      have h2 : E.compress p.2 a = .ok p.1 := hF.comp p (by rw [hch]; simp)
      obtain ⟨y, hy⟩ : ∃ y, r.2 = p.2 ++ y := by
        have := hg.content
        rw [hr, List.map_cons, List.flatten_cons] at this
        have hp : p.2 <+: r.2 := List.prefix_of_prefix_length_le ⟨new, this.symm⟩ ⟨_, rfl⟩ hpre
        obtain ⟨y, hy⟩ := hp
        exact ⟨y, hy.symm⟩
      rw [hy] at h1
      have h3 := hl _ _ _ _ h2 h1
      rw [hr]
      simp only [List.map_cons, Spec.records, List.flatMap_cons, List.length_append, hsz]
      omega
  · cases h

theorem prepareMetadata_magic {md : Option μ} {m : MetadataArgs} {S : MetaSection} (h : prepareMetadata E md m = .ok S) :
    m.magic_format = [74, 83, 79, 78] := by
  unfold prepareMetadata at h
  simp only [args_keys_ok, Except.ok_bind'] at h
  rw [Except.bind_ok_iff] at h
  obtain ⟨_, hser, -⟩ := h
  unfold serializerLookup at hser
  split at hser
  · rename_i hm; simpa [serializersAvail] using hm
  · cases hser

/-- the arguments a rewrite uses -/
theorem recreateMetadata_eq {old : MetadataHeader} {x : RewriteArgs} {m : MetadataArgs} (h : recreateMetadata E old x = .ok m) :
    m = { magic_format := x.magic_format.getD old.magic_format, meta_checksum := x.checksum.getD old.meta_checksum,
          meta_codec := x.codec.getD old.meta_codec, meta_level := x.level.getD old.meta_level, max_meta_size := .int old.max_meta_size } := by
  unfold recreateMetadata at h
  obtain ⟨x1, x2, x3, x4⟩ := x
  simp only [Except.bind_ok_iff] at h
  obtain ⟨m1, h1, m2, h2, m3, h3, h4⟩ := h
  have e1 : m1 = { magic_format := x1.getD old.magic_format, meta_checksum := old.meta_checksum, meta_codec := old.meta_codec,
                   meta_level := old.meta_level, max_meta_size := .int old.max_meta_size } := by
    cases x1 with
    | none => cases h1; rfl
    | some f =>
      simp only [Except.bind_ok_iff] at h1
      obtain ⟨_, -, h1⟩ := h1
      cases h1; rfl
  have e2 : m2 = { m1 with meta_checksum := x2.getD old.meta_checksum } := by
    cases x2 with
    | none => cases h2; rw [e1]; rfl
    | some f =>
      simp only [Except.bind_ok_iff] at h2
      obtain ⟨_, -, _, -, _, -, h2⟩ := h2
      split at h2
      · cases h2
      · cases h2; rfl
  have e3 : m3 = { m2 with meta_codec := x3.getD old.meta_codec } := by
    cases x3 with
    | none => cases h3; rw [e2, e1]; rfl
    | some f =>
      simp only [Except.bind_ok_iff] at h3
      obtain ⟨_, -, h3⟩ := h3
      cases h3; rfl
  have e4 : m = { m3 with meta_level := x4.getD old.meta_level } := by
    cases x4 with
    | none => cases h4; rw [e3, e2, e1]; rfl
    | some f =>
      simp only [Except.bind_ok_iff] at h4
      obtain ⟨_, -, h4⟩ := h4
      cases h4; rfl
  rw [e4, e3, e2, e1]

/-- the room for metadata -/
def Room (F : File μ) (r : Nat) : Prop := ∀ s, F.sec = some s → s.header.max_meta_size = r

theorem Canon.rewrite (L : E.Laws) {md : Option μ} {a : BloscArgs} {b : BloscpackArgs} {m : MetadataArgs} {F : File μ} (hF : Canon E md a b m F)
    {r : Nat} (hr : Room F r) {new : μ} {x : RewriteArgs} {fp : FP} (hrun : rewriteMetadata E (some new) x { data := F.bytes E } = (.ok (), fp)) :
    ∃ s m', fp.data = ({ F with sec := some s } : File μ).bytes E ∧ Canon E (some new) a b m' { F with sec := some s } ∧
      Room { F with sec := some s } r ∧ (x.codec.isSome ∧ x.level.isSome → m' = Spec.rewritten r m x) := by
  have hc := hF.conf
  rcases rewrite_run L hc _ _ _ _ _ hrun with ⟨e, h, -⟩ | ⟨s, s', h1, h2, h3, h4, -, -, h5, -, h8, -, m', S, h9, h6, h7⟩
  · cases h
  · refine ⟨s', m', h5, ⟨hc.replaceSec h1 h2 h4, fun h => ?_, ⟨S.args, .inr ⟨S, s', rfl, h6, h7, rfl, rfl⟩⟩, hF.comp, hF.offsets, hF.checksum, hF.typesize,
      hF.chunk, hF.apps⟩, ?_, ?_⟩
    · have : s'.metadata = none := h
      rw [h3] at this; cases this
    · rintro _ ⟨⟩
      rw [h8, hr s h1]
    · rintro ⟨hx1, hx2⟩
      obtain ⟨m0, hsec⟩ := hF.sec
      rw [h1] at hsec
      rcases hsec with ⟨-, h, -⟩ | ⟨S0, s0, -, g1, g2, g3, -⟩
      · cases h
      · cases g3
        rw [recreateMetadata_eq h9, Spec.rewritten, g2.valid.magic, prepareMetadata_magic g1, g2.checksum, hr s h1]
        obtain ⟨c, hx1⟩ := Option.isSome_iff_exists.1 hx1
        obtain ⟨l, hx2⟩ := Option.isSome_iff_exists.1 hx2
        rw [hx1, hx2]
        rfl

theorem canon_history (L : E.Laws) {a : BloscArgs} {b : BloscpackArgs} {d d' : Bytes} {log : List (Op μ × Bool)} (h : Spec.History E d log d') :
    Spec.SameSettings log a → ∀ (F : File μ) (md : Option μ) (m : MetadataArgs) (r : Nat), d = F.bytes E → Canon E md a b m F → Room F r →
      ∃ F' m', d' = F'.bytes E ∧ Canon E (Spec.effect (F.data, md) log).2 a b m' F' ∧ F'.data = (Spec.effect (F.data, md) log).1 ∧
        (Spec.CodecsGiven log → m' = Spec.settled r m log) ∧ F'.header.chunk_size = F.header.chunk_size ∧
        F'.header.nchunks + F'.header.max_app_chunks = F.header.nchunks + F.header.max_app_chunks ∧
        (Spec.LongerIsLonger E a → F.junk = [] → F'.junk = []) := by
  induction h with
  | nil d =>
    intro _ F md m r hd hF hr
    exact ⟨F, m, hd, hF, rfl, fun _ => rfl, rfl, rfl, fun _ h => h⟩
  | @step d d' op ok log d'' run size rest ih =>
    rintro hlog F md m r rfl hF hroom
    have hlog' : Spec.SameSettings log a := fun new x h => hlog new x (List.mem_cons_of_mem _ h)
    have hnr : Spec.CodecsGiven ((op, ok) :: log) → Spec.CodecsGiven log := fun h md x hm => h md x (List.mem_cons_of_mem _ hm)
    cases op with
    | append new args =>
      simp only [Op.run] at run
      generalize hr : appendFp E { data := new } new.length args { data := F.bytes E } = q at run
      obtain ⟨q, fp⟩ := q
      cases q with
      | error e =>
        simp only [Except.toBool, Prod.mk.injEq] at run
        obtain ⟨rfl, rfl⟩ := run
        obtain ⟨F', m', g1, g2, g3, g4, g5, g6, g7⟩ :=
          ih hlog' F md m r (C16_failed_append_untouched E L F hF.conf hF.nonnull new args e fp hr size).1 hF hroom
        exact ⟨F', m', g1, g2, g3, fun h => g4 (hnr h), g5, g6, g7⟩
      | ok k =>
        simp only [Except.toBool, Prod.mk.injEq] at run
        obtain ⟨rfl, rfl⟩ := run
        obtain ⟨F1, k1, k2, k3, k4, k5, k6, ks⟩ := hF.append L (hlog new args (by simp)) hr
        obtain ⟨F', m', g1, g2, g3, g4, g5, g6, g7⟩ := ih hlog' F1 md m r k1 k2 (fun s hs => hroom s (by rw [← ks]; exact hs))
        rw [k3] at g2 g3
        exact ⟨F', m', g1, g2, g3, fun h => g4 (hnr h), g5.trans k4, g6.trans k5, fun hl hj => g7 hl (k6 hl hj)⟩
    | rewrite new x =>
      simp only [Op.run] at run
      generalize hr : rewriteMetadata E (some new) x { data := F.bytes E } = q at run
      obtain ⟨q, fp⟩ := q
      cases q with
      | error e =>
        simp only [Except.toBool, Prod.mk.injEq] at run
        obtain ⟨rfl, rfl⟩ := run
        obtain ⟨F', m', g1, g2, g3, g4, g5, g6, g7⟩ := ih hlog' F md m r (C11_failed_rewrite_untouched E _ _ _ _ _ hr).1 hF hroom
        exact ⟨F', m', g1, g2, g3, fun h => g4 (hnr h), g5, g6, g7⟩
      | ok k =>
        simp only [Except.toBool, Prod.mk.injEq] at run
        obtain ⟨rfl, rfl⟩ := run
        obtain ⟨s, m1, k1, k2, k3, k4⟩ := hF.rewrite L hroom hr
        obtain ⟨F', m', g1, g2, g3, g4, g5, g6, g7⟩ := ih hlog' _ (some new) m1 r k1 k2 k3
        refine ⟨F', m', g1, g2, g3, fun h => ?_, g5, g6, g7⟩
        rw [g4 (hnr h), k4 (h new x List.mem_cons_self)]
        rfl

theorem File.Conforming.chunksOf {F : File μ} (hc : F.Conforming E) : F.header.nchunks = Spec.chunksOf F.header.chunk_size.toNat F.data.length := by
  have hlen := hc.data_length
  have hnp := hc.n_pos
  unfold Spec.chunksOf
  rcases hc.sizes with ⟨h1, h2⟩ | ⟨h1, h2, h3⟩
  · obtain ⟨c, hcs⟩ := Int.eq_ofNat_of_zero_le (show 0 ≤ F.header.chunk_size by omega)
    obtain ⟨n, hn⟩ := Int.eq_ofNat_of_zero_le (show 0 ≤ F.header.nchunks - 1 by omega)
    obtain ⟨l, hl⟩ := Int.eq_ofNat_of_zero_le (show 0 ≤ F.header.last_chunk by omega)
    rw [hn, hcs, hl] at hlen
    have e1 : F.data.length = c * n + l := by exact_mod_cast hlen
    have e2 : (F.data.length + c - 1) / c = n + 1 := by
      rw [e1]
      apply Nat.div_eq_of_lt_le
      · rw [Nat.add_mul, Nat.mul_comm n c]; omega
      · rw [Nat.add_mul, Nat.add_mul, Nat.mul_comm n c]; omega
    rw [hcs, Int.toNat_natCast, e2]
    omega
  · rw [h2, h1]; simp

end

/-! ### C97 -/

/-- C97: an archive that was packed and then changed in any way, all appends with the settings it was packed with, is, byte for byte, what packing
all the data at once gives: with the same chunk size, the room for appends that is left, the metadata last written, and the arguments for the
metadata that the rewrites amount to. Leftover bytes of earlier versions may follow, but not if compressing more data never gives less compressed
data. -/
theorem C97_all_at_once (E : Env μ) (L : E.Laws) (data : Bytes) (cs : ChunkSizeArg) (md : Option μ) (a : BloscArgs) (b : BloscpackArgs)
    (m : MetadataArgs) (out : Bytes) (h : packBytesToBytes E data cs md a b m = .ok out) :
    ∃ c w r : Nat, packBytesToBytes E data (.int c) md a { b with max_app_chunks := .int w } m = .ok out ∧
      (∀ hd md' mh os fp, readBeginning E { data := out } = (.ok (hd, md', some mh, os), fp) → mh.max_meta_size = r) ∧
      ∀ log d, Spec.History E out log d → Spec.SameSettings log a →
        ∃ w' m' all rest,
          packBytesToBytes E (Spec.effect (data, md) log).1 (.int c) (Spec.effect (data, md) log).2 a { b with max_app_chunks := .int (w' : Nat) } m' =
            .ok all ∧
          d = all ++ rest ∧ (Spec.LongerIsLonger E a → rest = []) ∧ (Spec.CodecsGiven log → m' = Spec.settled r m log) ∧
          Spec.chunksOf c (Spec.effect (data, md) log).1.length + w' = Spec.chunksOf c data.length + w := by
  obtain ⟨F, n, c, l, m0, h1, h2, h3, h4, h5, h6, h7, h8, h9⟩ := packBytesToBytes_ok L h
  obtain ⟨g1, g2, g3, g4, g5, g6, g7, g8, g9, g10⟩ := packHeader_ok h8
  have hF : Canon E md a b m F := by
    refine ⟨h2, fun hn => ?_, ⟨m0, h6⟩, h9, g3, g5, g6, ?_, fun hb => ?_⟩
    · have := h6.isSome
      rw [← h5, hn] at this
      cases hs : F.sec with
      | none => rfl
      | some s => rw [hs] at this; cases this
    · rw [g7, h4]; exact calculateNchunks_le h7
    · have hn1 := h2.n_pos
      have := g1.2.2.2.2.2.1.2
      rw [hb, C32_ignored false n _ (by omega) (by omega) (.inl rfl)] at g10
      injection g10 with g10
      exact g10.symm
  have c0 : 0 ≤ F.header.chunk_size := by rcases h2.sizes with h | h <;> omega
  have w0 : 0 ≤ F.header.max_app_chunks := h2.ok.2.2.2.2.2.2.1.1
  have ec : ((F.header.chunk_size.toNat : Nat) : Int) = F.header.chunk_size := by omega
  have ew : ((F.header.max_app_chunks.toNat : Nat) : Int) = F.header.max_app_chunks := by omega
  obtain ⟨r, hroom⟩ : ∃ r : Nat, Room F r := by
    cases hs : F.sec with
    | none => exact ⟨0, fun s h => by rw [hs] at h; cases h⟩
    | some s =>
      have hv := h2.sec_ok s hs
      have h1 := hv.size
      have h2 := hv.fits
      exact ⟨s.header.max_meta_size.toNat, fun s' h => by rw [hs] at h; cases h; omega⟩
  refine ⟨F.header.chunk_size.toNat, F.header.max_app_chunks.toNat, r, ?_, ?_, ?_⟩
  · have e1 := hF.pack L
    rw [h4] at e1
    rw [ec, ew, e1, h1, File.bytes, h3, List.append_nil]
  · intro hd md' mh os fp hrd
    obtain ⟨os', q, -, -⟩ := readBeginning_file L h2.toPre (F.body E ++ F.junk) []
    have hz : ({ data := out } : FP) = Z [] (F.front E ++ (F.body E ++ F.junk)) [] := by rw [h1]; rfl
    rw [hz, q] at hrd
    cases hs : F.sec with
    | none => rw [hs] at hrd; simp at hrd
    | some s =>
      rw [hs] at hrd
      simp only [Prod.mk.injEq, Except.ok.injEq, Option.map_some, Option.some.injEq] at hrd
      rw [← hrd.1.2.2.1]
      exact hroom s hs
  · intro log d hist hlog
    obtain ⟨F', m', k1, k2, k3, k4, k5, k6, k7⟩ := canon_history L hist hlog F md m r h1 hF hroom
    rw [h4] at k2 k3
    have w1 : 0 ≤ F'.header.max_app_chunks := k2.conf.ok.2.2.2.2.2.2.1.1
    have ew' : ((F'.header.max_app_chunks.toNat : Nat) : Int) = F'.header.max_app_chunks := by omega
    have e2 := k2.pack L
    rw [k3, k5] at e2
    refine ⟨F'.header.max_app_chunks.toNat, m', F'.front E ++ F'.body E, F'.junk, ?_, ?_, fun hl => k7 hl h3, k4, ?_⟩
    · rw [ec, ew', e2]
    · rw [k1, File.bytes, List.append_assoc]
    · have q1 := h2.chunksOf
      have q2 := k2.conf.chunksOf
      rw [k5, k3] at q2
      rw [h4] at q1
      omega

namespace Toy
theorem longer : Spec.LongerIsLonger env {} := by
  intro x y cx cxy h1 h2
  have g1 := (compress_ok h1).2.2.1
  have g2 := (compress_ok h2).2.2.1
  rw [List.length_append] at g2
  omega
/-- two ways to append two bytes; in one of them, metadata are written in between -/
def packed4 : Bytes := (Op.run env packed (.append [4] {})).2
def packed5 : Bytes := (Op.run env packed4 (.rewrite 3 {})).2
def packed6 : Bytes := (Op.run env packed5 (.append [5] {})).2
def packed7 : Bytes := (Op.run env packed6 (.rewrite 8 {})).2
def packed8 : Bytes := (Op.run env packed1 (.rewrite 8 {})).2
def log₁ : List (Op Nat × Bool) := [(.append [4] {}, true), (.rewrite 3 {}, true), (.append [5] {}, true), (.rewrite 8 {}, true)]
def log₂ : List (Op Nat × Bool) := [(.append [4, 5] {}, true), (.rewrite 8 {}, true)]
theorem history₁ : Spec.History env packed log₁ packed7 :=
  .step (d' := packed4) (by decide +kernel) (by decide +kernel)
    (.step (d' := packed5) (by decide +kernel) (by decide +kernel)
      (.step (d' := packed6) (by decide +kernel) (by decide +kernel)
        (.step (d' := packed7) (by decide +kernel) (by decide +kernel) (.nil _))))
theorem history₂ : Spec.History env packed log₂ packed8 :=
  .step (d' := packed1) (by decide +kernel) (by decide +kernel)
    (.step (d' := packed8) (by decide +kernel) (by decide +kernel) (.nil _))
theorem settings₁ : Spec.SameSettings log₁ {} := by
  intro new x h
  simp [log₁] at h
  rcases h with ⟨rfl, rfl⟩ | ⟨rfl, rfl⟩ <;> exact ⟨.inl rfl, rfl, rfl, rfl⟩
theorem settings₂ : Spec.SameSettings log₂ {} := by
  intro new x h
  simp [log₂] at h
  obtain ⟨rfl, rfl⟩ := h
  exact ⟨.inl rfl, rfl, rfl, rfl⟩
theorem codecs₁ : Spec.CodecsGiven log₁ := by
  intro new x h
  simp [log₁] at h
  rcases h with ⟨rfl, rfl⟩ | ⟨rfl, rfl⟩ <;> exact ⟨rfl, rfl⟩
theorem codecs₂ : Spec.CodecsGiven log₂ := by
  intro new x h
  simp [log₂] at h
  obtain ⟨rfl, rfl⟩ := h
  exact ⟨rfl, rfl⟩
end Toy

/-- the archive after four changes is that of packing at once -/
example : ∃ w' : Nat, packBytesToBytes Toy.env [1, 2, 3, 4, 5] (.int 2) (some 8) {} { max_app_chunks := .int w' }
    { max_meta_size := .int 12 } = .ok Toy.packed7 ∧ Toy.packed7 ≠ Toy.packed := ⟨0, by decide +kernel, by decide +kernel⟩

/-- what C97 says about it: its hypotheses are met -/
example : ∃ c w r : Nat, packBytesToBytes Toy.env [1, 2, 3, 4, 5] (.int c) (some 8) {} { max_app_chunks := .int w }
    (Spec.settled r { max_meta_size := .int 12 } Toy.log₁) = .ok Toy.packed7 := by
  obtain ⟨c, w, r, h1, h2, h3⟩ := C97_all_at_once Toy.env Toy.laws _ _ _ _ _ _ _ Toy.packed_ok
  obtain ⟨w', m', all, rest, g1, g2, g3, g4, g5⟩ := h3 _ _ Toy.history₁ Toy.settings₁
  rw [g3 Toy.longer, List.append_nil] at g2
  rw [g4 Toy.codecs₁, ← g2] at g1
  exact ⟨c, w', r, g1⟩

/-- C97: how data are split over appends does not matter, nor do metadata that were written in between: two histories with the same settings and the
same effect leave the same archive, namely that of packing everything at once, apart from leftover bytes at the end. -/
theorem C97_split (E : Env μ) (L : E.Laws) (data : Bytes) (cs : ChunkSizeArg) (md : Option μ) (a : BloscArgs) (b : BloscpackArgs)
    (m : MetadataArgs) (out : Bytes) (h : packBytesToBytes E data cs md a b m = .ok out) (log₁ log₂ : List (Op μ × Bool)) (d₁ d₂ : Bytes)
    (hist₁ : Spec.History E out log₁ d₁) (hist₂ : Spec.History E out log₂ d₂) (hlog₁ : Spec.SameSettings log₁ a) (hlog₂ : Spec.SameSettings log₂ a)
    (hc₁ : Spec.CodecsGiven log₁) (hc₂ : Spec.CodecsGiven log₂) (heff : Spec.effect (data, md) log₁ = Spec.effect (data, md) log₂)
    (hargs : ∀ r, Spec.settled r m log₁ = Spec.settled r m log₂) :
    ∃ c w r all rest₁ rest₂,
      packBytesToBytes E (Spec.effect (data, md) log₁).1 (.int c) (Spec.effect (data, md) log₁).2 a { b with max_app_chunks := .int w }
        (Spec.settled r m log₁) = .ok all ∧
      d₁ = all ++ rest₁ ∧ d₂ = all ++ rest₂ ∧ (Spec.LongerIsLonger E a → d₁ = d₂) := by
  obtain ⟨c, w, r, -, -, hall⟩ := C97_all_at_once E L data cs md a b m out h
  obtain ⟨w1, m1, all1, rest1, p1, p2, p3, p4, p5⟩ := hall log₁ d₁ hist₁ hlog₁
  obtain ⟨w2, m2, all2, rest2, q1, q2, q3, q4, q5⟩ := hall log₂ d₂ hist₂ hlog₂
  have p4 := p4 hc₁
  have q4 := q4 hc₂
  rw [← hargs r] at q4
  rw [← heff] at q1 q5
  have : w1 = w2 := by omega
  subst this p4 q4
  rw [p1] at q1
  cases q1
  refine ⟨c, w1, r, all1, rest1, rest2, p1, p2, q2, fun hl => ?_⟩
  rw [p2, q2, p3 hl, q3 hl]

example : Toy.packed7 = Toy.packed8 := by
  obtain ⟨_, _, _, _, _, _, -, -, -, h⟩ := C97_split Toy.env Toy.laws _ _ _ _ _ _ _ Toy.packed_ok _ _ _ _ Toy.history₁ Toy.history₂ Toy.settings₁
    Toy.settings₂ Toy.codecs₁ Toy.codecs₂ rfl (fun r => rfl)
  exact h Toy.longer

end Bloscpack
