import Verif.Lemmas.Refused
/-
C99: why packing is refused.
-/
namespace Bloscpack
variable {μ : Type}

/-- the offsets of a run fit their fields if the sizes are sensible -/
theorem offsets_fit {E : Env μ} (L : E.Laws) {h : BloscpackHeader} {sec : Option (Section μ)} {md : Option μ} {m m' : MetadataArgs}
    {chs : List (Bytes × Bytes)} {a : BloscArgs} {n : Int} (k1 : h.OK) (k2 : h.format_version = 3) (k4 : h.metadata = md.isSome)
    (k9 : h.nchunks = n) (hs : SecFor E md m sec m') (hb : offsetsLen h < 2 ^ 63) (hc : ∀ p ∈ chs, E.compress p.2 a = .ok p.1)
    (ho : h.offsets = true) (hcl2 : (chs.length : Int) = n) (hn : n ≤ 2 ^ 50) (hdl : (chs.map (·.2)).flatten.length < 2 ^ 50)
    (hw : h.max_app_chunks < 2 ^ 59) :
    ∃ raw, encodeOffsets (Spec.positions ((baseFile h sec chs).impl E).function ((baseFile h sec chs).front E).length (chs.map (·.1))) = .ok raw := by
  have hpre := baseFile_pre (chs := chs) L k1 k2 hs.valid (by rw [k4, hs.isSome]) hb (by omega) hc
  have himem := (File.lookup hpre).2.1
  have hrec := records_length_le L himem a chs hc
  have hsz := Hash.size_le himem
  have hfront : ((baseFile h sec chs).front E).length ≤ 32 + 2 ^ 33 + 8 * (2 ^ 50 + 2 ^ 59) := by
    unfold File.front
    rw [List.length_append, List.length_append, BloscpackHeader.bytes_length]
    have : ((baseFile h sec chs).secBytes E).length ≤ 2 ^ 33 := by
      unfold File.secBytes baseFile
      cases hsec : sec with
      | none => simp
      | some s => exact Section.bytes_le L (hs.valid s hsec)
    have h3 : (baseFile h sec chs).offsets.length = offsetsLen h := placeholder_length h
    rw [h3]
    unfold offsetsLen
    rw [if_pos ho]
    omega
  have : chs.length * (16 + ((baseFile h sec chs).impl E).size) ≤ chs.length * 80 := Nat.mul_le_mul_left _ (by omega)
  refine ⟨_, (encodeOffsets_iff _ _).2 ⟨?_, rfl⟩⟩
  intro o ho'
  have := positions_le_records _ _ _ o ho'
  omega

theorem cut_not_refused {size : Nat} {cs : ChunkSizeArg} {n c : Int} {e : Err} (hcut : Spec.CutInto size cs n c)
    (hr : Spec.ChunkSizeRefused size cs e) : False := by
  rcases hcut with ⟨hz, -⟩ | ⟨hp, v, v1, v2, v3, -⟩
  · have := hr.1; omega
  · rcases hr.2 with ⟨rfl, -⟩ | ⟨s, rfl, hs'⟩ | ⟨v', w1, w2, -⟩
    · rcases v1 with v1 | ⟨s, v1, -⟩ <;> cases v1
    · rcases v1 with v1 | ⟨s', v1, hs''⟩
      · cases v1
      · cases v1; rw [hs'] at hs''; cases hs''
    · obtain rfl := requested_unique v1 w1
      exact w2 ⟨v2, v3⟩

/-- C99: packing up to 2^50 bytes, with room for less than 2^59 chunks asked for, raises exactly the exception of the first reason to
refuse it, and returns if there is none. -/
theorem C99_refused (E : Env μ) (L : E.Laws) (data : Bytes) (cs : ChunkSizeArg) (md : Option μ) (a : BloscArgs) (b : BloscpackArgs)
    (m : MetadataArgs) (hs : data.length < 2 ^ 50)
    (hw : b.offsets = true → ∀ n w, 1 ≤ n → n ≤ 2 ^ 50 → Spec.RequestedApps b.max_app_chunks n w → w < 2 ^ 59) (e : Err) :
    packBytesToBytes E data cs md a b m = .error e ↔ Spec.PackRefused E data cs md a b m e := by
  have hiff0 := fun e => chunkSize_error_iff hs cs e
  unfold Spec.PackRefused
  rcases packBytes_run L data cs md a b m with ⟨e', h0, h1⟩ | ⟨n, c, l, h0, hh⟩
  · rw [packBytesToBytes_eq, h1]
    have hr := (hiff0 e').1 h0
    constructor
    · intro h; cases h; exact .inl hr
    · rintro (h | ⟨n, c, hcut, -⟩)
      · have := (hiff0 e).2 h; rw [h0] at this; cases this; rfl
      · exact (cut_not_refused hcut hr).elim
  have hno0 : ∀ e', ¬ Spec.ChunkSizeRefused data.length cs e' := by
    intro e' h; have := (hiff0 e').2 h; rw [h0] at this; cases this
  have hcut := cutInto_of h0
  obtain ⟨q1, q2, q3, q4, q5, q6, q7⟩ := C02_chunking_covers _ _ _ _ _ h0
  have hcl : 0 ≤ l ∧ c ≤ 2 ^ 31 - 17 ∧ n ≤ 2 ^ 50 := by
    rcases hcut with ⟨z1, z2, z3⟩ | ⟨z1, v, z2, z3, z4, z5, z6, z7⟩
    · have := q6 (by omega); omega
    · refine ⟨by have := (q7 (by omega)).1; omega, by omega, ?_⟩
      have : (n - 1) * 1 ≤ (n - 1) * c := Int.mul_le_mul_of_nonneg_left (by omega) (by omega)
      omega
  have hiff1 := fun e => settings_error_iff q2 q3 hcl.1 q4 hcl.2.1 md a b e
  have hred : ∀ P : Int → Int → Prop, (Spec.ChunkSizeRefused data.length cs e ∨ ∃ n c, Spec.CutInto data.length cs n c ∧ P n c) ↔ P n c := by
    intro P
    constructor
    · rintro (h | ⟨n', c', h1, h2⟩)
      · exact absurd h (hno0 _)
      · obtain ⟨rfl, rfl⟩ := cutInto_unique hcut h1; exact h2
    · intro h; exact .inr ⟨n, c, hcut, h⟩
  rw [hred]
  rcases hh with ⟨e', he, h1⟩ | ⟨h, r, fp, init, tl, g1, g2, g3, g4, g5, g6, g7, g8, g9⟩
  · rw [packBytesToBytes_eq, h1]
    constructor
    · intro h; cases h; exact .inl ((hiff1 _).1 he)
    · rintro (h | ⟨h, -⟩)
      · have := (hiff1 _).2 h; rw [he] at this; cases this; rfl
      · exact absurd ((hiff1 _).1 he) (h _)
  have hno1 : ∀ e', ¬ Spec.SettingsRefused n a b e' := by
    intro e' h; have := (hiff1 e').2 h; rw [g1] at this; cases this
  have hred1 : ∀ P : Prop, (Spec.SettingsRefused n a b e ∨ (∀ e', ¬ Spec.SettingsRefused n a b e') ∧ P) ↔ P := by
    intro P
    constructor
    · rintro (h | ⟨-, h⟩)
      · exact absurd h (hno1 _)
      · exact h
    · intro h; exact .inr ⟨hno1, h⟩
  rw [hred1]
  have hiff2 := fun e => metadata_error_iff L md m e
  obtain ⟨k1, k2, k3, k4, k5, k6, k7, k8, k9, k10⟩ := packHeader_ok g1
  have hsize : (init ++ [tl]).length = n.toNat := by simp; omega
  have hpiece : ∀ k (hk : k < (init ++ [tl]).length), (data.drop (k * c.toNat)).take c.toNat = (init ++ [tl])[k] := by
    intro k hk
    have := pieces_eq (c := c.toNat) init tl (fun b hb => by have := g5 b hb; omega) (by omega) k hk
    rw [g7] at this
    exact this
  have happ : h.offsets = true → h.max_app_chunks < 2 ^ 59 := by
    intro ho
    rw [k3] at ho
    have hno2 : ∀ e', ¬ Spec.AppsRefused n b e' := fun e' h' => hno1 e' (.inl h')
    have hreq : ∃ w, Spec.RequestedApps b.max_app_chunks n w ∧ 0 ≤ w := by
      cases hm : b.max_app_chunks with
      | other => exact absurd ⟨ho, .inl ⟨hm, rfl⟩⟩ (hno2 _)
      | int i =>
        refine ⟨i, .inl rfl, ?_⟩
        apply Classical.byContradiction
        intro hi
        exact hno2 _ ⟨ho, .inr (.inl ⟨i, hm, fun x => hi x.1, rfl⟩)⟩
      | callable f =>
        apply Classical.byContradiction
        intro hi
        refine hno2 _ ⟨ho, .inr (.inr ⟨f, hm, fun w hw' => ?_, rfl⟩)⟩
        apply Classical.byContradiction
        intro hw0
        exact hi ⟨w, .inr ⟨f, rfl, hw'⟩, by omega⟩
    obtain ⟨w, w1, w2⟩ := hreq
    have w3 := hw ho n w q2 hcl.2.2 w1
    rw [ho, C32_exact true n _ w (by omega) q3 rfl w1 w2 (fun _ _ => by omega)] at k10
    have := Except.ok.inj k10
    omega
  have hmeta : ∀ sec m', SecFor E md m sec m' → ∀ P : Prop,
      ((md.isSome ∧ Spec.MetadataRefused E md m e) ∨ ((md.isSome → ∀ e', ¬ Spec.MetadataRefused E md m e') ∧ P)) ↔ P := by
    intro sec m' hsec P
    have hno : md.isSome → ∀ e', ¬ Spec.MetadataRefused E md m e' := by
      intro hsome e' h
      have h' := (hiff2 e').2 h
      rcases hsec with ⟨hn, -⟩ | ⟨S, s, -, hS, -⟩
      · rw [hn] at hsome; cases hsome
      · rw [hS] at h'; cases h'
    constructor
    · rintro (⟨h1, h2⟩ | ⟨-, h⟩)
      · exact absurd h2 (hno h1 _)
      · exact h
    · intro h; exact .inr ⟨hno, h⟩
  have hnone : ∀ chs : List (Bytes × Bytes), chs.map (·.2) = init ++ [tl] → (∀ p ∈ chs, E.compress p.2 a = .ok p.1) →
      ¬ ∃ k : Nat, (k : Int) < n ∧ E.compress ((data.drop (k * c.toNat)).take c.toNat) a = .error e ∧
          ∀ j < k, ∃ z, E.compress ((data.drop (j * c.toNat)).take c.toNat) a = .ok z := by
    rintro chs hi hc ⟨k, hk, hk', -⟩
    have hk2 : k < (init ++ [tl]).length := by omega
    rw [hpiece k hk2] at hk'
    have hk3 : k < chs.length := by have := congrArg List.length hi; rw [List.length_map] at this; omega
    have := hc _ (List.getElem_mem hk3)
    have e1 : chs[k].2 = (init ++ [tl])[k] := by simp [← hi]
    rw [e1, hk'] at this
    cases this
  have hpos : ∀ m', r = .ok m' → ¬ fp.pos = 0 := by
    rintro m' rfl
    obtain ⟨fp', -, -, -, -, h1, -, -, -, -, -, -, -, -, -, h11⟩ := packBytes_ok L g2
    cases h1; exact h11
  rw [packBytesToBytes_eq, g2]
  cases g3 with
  | metadata e' _ hm' he hfp =>
    constructor
    · intro h; cases h; exact .inl ⟨hm', (hiff2 _).1 he⟩
    · rintro (⟨-, h⟩ | ⟨h, -⟩)
      · have := (hiff2 _).2 h; rw [he] at this; cases this; rfl
      · exact absurd ((hiff2 _).1 he) (h hm' _)
  | space sec m' hs' hb _ hfp =>
    exfalso
    unfold offsetsLen at hb
    split at hb
    · rename_i ho
      have := happ ho
      omega
    · omega
  | chunk sec m' hs' hb chs d rest e' hi hc he _ hfp =>
    rw [hmeta sec m' hs']
    have hlen : chs.length < (init ++ [tl]).length := by rw [← hi]; simp
    have hat : (init ++ [tl])[chs.length] = d := by simp [← hi]
    have hlt : ∀ j (hj : j < chs.length), (init ++ [tl])[j] = chs[j].2 := by
      intro j hj
      simp [← hi, List.getElem_append, hj]
    have hok : ∀ j, j < chs.length → ∃ z, E.compress ((data.drop (j * c.toNat)).take c.toNat) a = .ok z := by
      intro j hj
      rw [hpiece j (by omega), hlt j hj]
      exact ⟨_, hc _ (List.getElem_mem hj)⟩
    have herr : E.compress ((data.drop (chs.length * c.toNat)).take c.toNat) a = .error e' := by
      rw [hpiece _ hlen, hat]; exact he
    constructor
    · intro h; cases h
      exact ⟨chs.length, by omega, herr, hok⟩
    · rintro ⟨k, r1, r2, r3⟩
      have : k = chs.length := by
        rcases Nat.lt_trichotomy k chs.length with h | h | h
        · obtain ⟨z, hz⟩ := hok k h; rw [hz] at r2; cases r2
        · exact h
        · obtain ⟨z, hz⟩ := r3 _ h; rw [hz] at herr; cases herr
      subst this
      rw [r2] at herr; cases herr; rfl
  | offset sec m' hs' hb chs e' hi hc ho he _ hd hl =>
    exfalso
    obtain ⟨raw, hraw⟩ := offsets_fit L k1 k2 k4 k9 hs' hb hc ho (by have := congrArg List.length hi; rw [List.length_map] at this; omega)
      hcl.2.2 (by rw [hi, g7]; exact hs) (happ ho)
    rw [hraw] at he; cases he
  | plain sec m' hs' hb chs hi hc ho _ hfp =>
    rw [hmeta sec m' hs']
    have := hnone chs hi hc
    simp only [this, iff_false]
    rw [if_neg (hpos _ rfl)]
    intro h; cases h
  | full sec m' hs' hb chs hi hc ho raw he _ hd hl hp =>
    rw [hmeta sec m' hs']
    have := hnone chs hi hc
    simp only [this, iff_false]
    rw [if_neg (hpos _ rfl)]
    intro h; cases h

/-- the settings that pass ask for less room than 2^59 chunks, if so limited -/
theorem apps_small {n : Int} (hn0 : 1 ≤ n) (hn1 : n ≤ 2 ^ 50) {b : BloscpackArgs} {w : Int} (hno : ∀ e', ¬ Spec.AppsRefused n b e')
    (hw : b.offsets = true → ∀ n w, 1 ≤ n → n ≤ 2 ^ 50 → Spec.RequestedApps b.max_app_chunks n w → w < 2 ^ 59)
    (hh : handleMaxApps b.offsets n b.max_app_chunks = .ok w) : w < 2 ^ 59 := by
  cases ho : b.offsets with
  | false => rw [ho, C32_ignored false n _ (by omega) (by omega) (.inl rfl)] at hh; cases hh; decide
  | true =>
    have hreq : ∃ w, Spec.RequestedApps b.max_app_chunks n w ∧ 0 ≤ w := by
      cases hm : b.max_app_chunks with
      | other => exact absurd ⟨ho, .inl ⟨hm, rfl⟩⟩ (hno _)
      | int i =>
        refine ⟨i, .inl rfl, ?_⟩
        apply Classical.byContradiction
        intro hi
        exact hno _ ⟨ho, .inr (.inl ⟨i, hm, fun x => hi x.1, rfl⟩)⟩
      | callable f =>
        apply Classical.byContradiction
        intro hi
        refine hno _ ⟨ho, .inr (.inr ⟨f, hm, fun w hw' => ?_, rfl⟩)⟩
        apply Classical.byContradiction
        intro hw0
        exact hi ⟨w, .inr ⟨f, rfl, hw'⟩, by omega⟩
    obtain ⟨w', w1, w2⟩ := hreq
    have w3 := hw ho n w' hn0 hn1 w1
    rw [ho, C32_exact true n _ w' (by omega) (by omega) rfl w1 w2 (fun _ _ => by omega)] at hh
    have := Except.ok.inj hh
    omega

/-- the number and size of chunks -/
theorem cut_bounds {size : Nat} (hs : size < 2 ^ 50) {cs : ChunkSizeArg} {n c l : Int} (h0 : calculateNchunks size cs = .ok (n, c, l)) :
    1 ≤ n ∧ n ≤ 2 ^ 50 ∧ 0 ≤ l ∧ l ≤ c ∧ c ≤ 2 ^ 31 - 17 := by
  have hcut := cutInto_of h0
  obtain ⟨q1, q2, q3, q4, q5, q6, q7⟩ := C02_chunking_covers _ _ _ _ _ h0
  rcases hcut with ⟨z1, z2, z3⟩ | ⟨z1, v, z2, z3, z4, z5, z6, z7⟩
  · have := q6 (by omega); omega
  · have : (n - 1) * 1 ≤ (n - 1) * c := Int.mul_le_mul_of_nonneg_left (by omega) (by omega)
    have := (q7 (by omega)).1
    refine ⟨by omega, by omega, by omega, by omega, by omega⟩

/-- C99: so does packing an array. -/
theorem C99_array (E : Env Json) (L : E.Laws) (lib : NumpyLib) (arr : NdArray) (alloc : Int) (cs : ChunkSizeArg) (a : BloscArgs)
    (b : BloscpackArgs) (m : MetadataArgs) (hs : prodShape arr.shape * arr.itemsize < 2 ^ 50)
    (hw : b.offsets = true → ∀ n w, 1 ≤ n → n ≤ 2 ^ 50 → Spec.RequestedApps b.max_app_chunks n w → w < 2 ^ 59) (e : Err) :
    packNdarrayToBytes E lib arr alloc cs a b m = .error e ↔ Spec.ArrayRefused E lib arr (sourceBuffer arr alloc) cs a b m e := by
  have hlen : (sourceBuffer arr alloc).length = prodShape arr.shape * arr.itemsize := by simp [sourceBuffer]
  have hs' : (sourceBuffer arr alloc).length < 2 ^ 50 := by rw [hlen]; exact hs
  have hiff0 := fun e => chunkSize_error_iff hs cs e
  unfold Spec.ArrayRefused
  rw [hlen]
  rcases packNdarray_cases E L lib arr alloc cs a b m with ⟨h1, h2⟩ | ⟨h1, hh⟩
  · rw [h2]
    have := (hasObject_iff _).1 h1
    simp [this, eq_comm]
  have hobj : ¬ Spec.Mentions (pyStr "|O") arr.dtype := by
    intro h; rw [(hasObject_iff _).2 h] at h1; cases h1
  have red0 : ∀ P : Prop, (Spec.Mentions (pyStr "|O") arr.dtype ∧ e = .objectNumpyArrayRejection ∨ ¬ Spec.Mentions (pyStr "|O") arr.dtype ∧ P) ↔ P := by
    intro P; simp [hobj]
  rw [red0]
  rcases hh with ⟨e', hmd, h2⟩ | ⟨md, hmd, hh⟩
  · rw [h2, hmd]
    simp
  have red1 : ∀ P : Json → Prop, (ndarrayMeta lib arr = .error e ∨ ∃ md, ndarrayMeta lib arr = .ok md ∧ P md) ↔ P md := by
    intro P; simp [hmd]
  rw [red1]
  rcases hh with ⟨e', h0, h2⟩ | ⟨n, c, l, h0, hh⟩
  · rw [h2]
    have hr := (hiff0 e').1 h0
    constructor
    · intro h; cases h; exact .inl hr
    · rintro (h | ⟨n, c, hcut, -⟩)
      · have := (hiff0 e).2 h; rw [h0] at this; cases this; rfl
      · exfalso
        exact cut_not_refused hcut hr
  have hno0 : ∀ e', ¬ Spec.ChunkSizeRefused (prodShape arr.shape * arr.itemsize) cs e' := by
    intro e' h; have := (hiff0 e').2 h; rw [h0] at this; cases this
  have hcut := cutInto_of h0
  obtain ⟨q1, q2, q3, q4, q5⟩ := cut_bounds hs h0
  have hred : ∀ P : Int → Int → Prop, (Spec.ChunkSizeRefused (prodShape arr.shape * arr.itemsize) cs e ∨
      ∃ n c, Spec.CutInto (prodShape arr.shape * arr.itemsize) cs n c ∧ P n c) ↔ P n c := by
    intro P
    constructor
    · rintro (h | ⟨n', c', h1, h2⟩)
      · exact absurd h (hno0 _)
      · obtain ⟨rfl, rfl⟩ := cutInto_unique hcut h1; exact h2
    · intro h; exact .inr ⟨n, c, hcut, h⟩
  rw [hred]
  have hiff1 := fun e => settings_error_iff q1 (by omega) q3 q4 q5 (some md) { a with typesize := arr.itemsize } b e
  have hiff2 := fun e => metadata_error_iff L (some md) m e
  rcases hh with ⟨e0, hp, -⟩ | ⟨ps, hp, h2⟩
  · -- the source stops at once
    have hsrc : plainNumpySource (sourceArray arr alloc) c l n = ⟨[], some e0⟩ := by
      have hitem : (sourceArray arr alloc).itemsize = arr.itemsize := by unfold sourceArray; split <;> rfl
      unfold plainNumpySource; rw [hitem, hp]
    have hrun : ∀ e', (∃ s, pack E (plainNumpySource (sourceArray arr alloc)) (compressedFPSink E) n c l (some md) { a with typesize := arr.itemsize } b m
        { fp := { data := [] } } = (.error e', s)) → packNdarrayToBytes E lib arr alloc cs a b m = .error e' := by
      rintro e' ⟨s, hs⟩
      unfold packNdarrayToBytes packNdarray
      rw [Proc.bind_of_ok (a := ()) (s' := { fp := { data := [] } }) (by simp [Proc.raiseIf, Proc.pure, h1]), hmd,
        Proc.bind_of_ok (Proc.ofExcept_apply _ _), h0, Proc.bind_of_ok (Proc.ofExcept_apply _ _)]
      simp only
      rw [Proc.bind_of_error hs]
    rcases pack_stop_run L _ n c l (some md) { a with typesize := arr.itemsize } b m q1 e0 hsrc with
      ⟨e', s, he, hpk⟩ | ⟨h, hh, ⟨e', s, -, he, hpk⟩ | ⟨sec, m', hsec, hspace | ⟨s, hpk⟩⟩⟩
    · rw [hrun _ ⟨s, hpk⟩]
      constructor
      · intro h; cases h; exact .inl ((hiff1 _).1 he)
      · rintro (h | ⟨h, -⟩)
        · have := (hiff1 _).2 h; rw [he] at this; cases this; rfl
        · exact absurd ((hiff1 _).1 he) (h _)
    · have hno1 : ∀ e', ¬ Spec.SettingsRefused n { a with typesize := arr.itemsize } b e' := by
        intro e' h; have := (hiff1 e').2 h; rw [hh] at this; cases this
      rw [hrun _ ⟨s, hpk⟩]
      constructor
      · intro h; cases h; exact .inr ⟨hno1, .inl ((hiff2 _).1 he)⟩
      · rintro (h | ⟨-, h | ⟨h, -⟩⟩)
        · exact absurd h (hno1 _)
        · have := (hiff2 _).2 h; rw [he] at this; cases this; rfl
        · exact absurd ((hiff2 _).1 he) (h _)
    · exfalso
      have hno1 : ∀ e', ¬ Spec.SettingsRefused n { a with typesize := arr.itemsize } b e' := by
        intro e' h; have := (hiff1 e').2 h; rw [hh] at this; cases this
      obtain ⟨k1, k2, k3, k4, k5, k6, k7, k8, k9, k10⟩ := packHeader_ok hh
      have := apps_small q1 q2 (fun e' h' => hno1 e' (.inl h')) hw k10
      unfold offsetsLen at hspace
      split at hspace <;> omega
    · have hno1 : ∀ e', ¬ Spec.SettingsRefused n { a with typesize := arr.itemsize } b e' := by
        intro e' h; have := (hiff1 e').2 h; rw [hh] at this; cases this
      have hno2 : ∀ e', ¬ Spec.MetadataRefused E (some md) m e' := by
        intro e' h
        have h' := (hiff2 e').2 h
        rcases hsec with ⟨hn, -⟩ | ⟨S, s, -, hS, -⟩
        · cases hn
        · rw [hS] at h'; cases h'
      rw [hrun _ ⟨s, hpk⟩]
      have hcase : (arr.itemsize = 0 ∧ e0 = .zeroDivisionError) ∨ (arr.itemsize ≠ 0 ∧ ¬ (arr.itemsize : Int) ∣ c ∧ e0 = .chunkSizeTypeSizeMismatch) := by
        unfold numpyPairs at hp
        split at hp
        · rename_i hz; cases hp; exact .inl ⟨hz, rfl⟩
        · split at hp
          · rename_i hz hd
            cases hp
            exact .inr ⟨hz, fun hdvd => hd (Int.emod_eq_zero_of_dvd hdvd), rfl⟩
          · cases hp
      constructor
      · intro h; cases h
        exact .inr ⟨hno1, .inr ⟨hno2, by rcases hcase with h | h; exact .inl h; exact .inr (.inl h)⟩⟩
      · rintro (h | ⟨-, h | ⟨-, h⟩⟩)
        · exact absurd h (hno1 _)
        · exact absurd h (hno2 _)
        · rcases hcase with ⟨z1, rfl⟩ | ⟨z1, z2, rfl⟩
          · rcases h with ⟨-, rfl⟩ | ⟨h, -⟩ | ⟨h, -⟩
            · rfl
            · exact absurd z1 h
            · exact absurd z1 h
          · rcases h with ⟨h, -⟩ | ⟨-, -, rfl⟩ | ⟨-, h, -⟩
            · exact absurd h z1
            · rfl
            · exact absurd h z2
  · rw [h2, C99_refused E L _ cs (some md) _ b m hs' hw e]
    unfold Spec.PackRefused
    rw [hlen, hred]
    obtain ⟨z1, z2, -⟩ := numpyPairs_ok hp
    simp [z1, z2]

/-- C99: a packing with no reason to be refused returns. -/
theorem C99_accepted (E : Env μ) (L : E.Laws) (data : Bytes) (cs : ChunkSizeArg) (md : Option μ) (a : BloscArgs) (b : BloscpackArgs)
    (m : MetadataArgs) (hs : data.length < 2 ^ 50)
    (hw : b.offsets = true → ∀ n w, 1 ≤ n → n ≤ 2 ^ 50 → Spec.RequestedApps b.max_app_chunks n w → w < 2 ^ 59) :
    (∃ out, packBytesToBytes E data cs md a b m = .ok out) ↔ ∀ e, ¬ Spec.PackRefused E data cs md a b m e := by
  constructor
  · rintro ⟨out, h⟩ e he
    rw [(C99_refused E L data cs md a b m hs hw e).2 he] at h
    cases h
  · intro h
    cases hp : packBytesToBytes E data cs md a b m with
    | ok out => exact ⟨out, rfl⟩
    | error e => exact absurd ((C99_refused E L data cs md a b m hs hw e).1 hp) (h e)

/-- C99: packing a file to another file that can be written is refused for the same reasons. -/
theorem C99_file (E : Env μ) (L : E.Laws) (fs : FS) (i o : String) (data : Bytes) (cs : ChunkSizeArg) (md : Option μ) (a : BloscArgs)
    (b : BloscpackArgs) (m : MetadataArgs) (hi : fs.files i = some data) (ho : fs.canWrite o = true) (hio : i ≠ o) (hs : data.length < 2 ^ 50)
    (hw : b.offsets = true → ∀ n w, 1 ≤ n → n ≤ 2 ^ 50 → Spec.RequestedApps b.max_app_chunks n w → w < 2 ^ 59) (e : Err) :
    (∃ fs', packFileToFile E fs i o cs md a b m = (.error e, fs')) ↔ Spec.PackRefused E data cs md a b m e := by
  obtain ⟨h1, -, h2, -⟩ := C46_pack_agree E L fs i o data cs md a b m hi ho hio
  rw [h1, ← h2 e, C99_refused E L data cs md a b m hs hw e]

/-- the hypotheses hold for the default settings -/
example (n w : Int) (_h0 : 1 ≤ n) (hn : n ≤ 2 ^ 50) (h : Spec.RequestedApps DEFAULT_MAX_APP_CHUNKS n w) : w < 2 ^ 59 := by
  rcases h with h | ⟨f, h, hf⟩
  · cases h
  · cases h; simp at hf; omega

/-- one case for each reason, most of them with later reasons present as well -/
example : packBytesToBytes Toy.env [1, 2, 3] (.str "2X".toList) (some 5) { typesize := 300 } {} {} = .error .valueError := by decide +kernel
example : packBytesToBytes Toy.env [1, 2, 3] .other (some 5) { typesize := 300 } { checksum := "x" } {} = .error .typeError := by decide +kernel
example : packBytesToBytes Toy.env [1, 2, 3] (.int 2) (some 5) { typesize := 300 } { checksum := "x", max_app_chunks := .other } {} = .error .typeError := by
  decide +kernel
example : packBytesToBytes Toy.env [1, 2, 3] (.int 2) (some 5) { typesize := 300 } { checksum := "x" } {} = .error .noSuchChecksum := by decide +kernel
example : packBytesToBytes Toy.env [1, 2, 3] (.int 2) (some 5) { typesize := 300 } {} { magic_format := [] } = .error .valueError := by decide +kernel
example : packBytesToBytes Toy.env [1, 2, 3] (.int 2) (some 5) {} {} { magic_format := [], meta_codec := "x" } = .error .keyError := by decide +kernel
example : packBytesToBytes Toy.env [1, 2, 3] (.int 2) (some 5) {} {} { max_meta_size := .other, meta_checksum := "x" } = .error .unboundLocalError := by
  decide +kernel
example : packBytesToBytes Toy.env [1, 2, 3] (.int 2) (some 5) {} {} { max_meta_size := .int 0, meta_checksum := "x" } =
    .error .metadataSectionTooSmall := by decide +kernel
example : packBytesToBytes Toy.env [1, 2, 3] (.int 2) (some 5) {} {} { max_meta_size := .int (2 ^ 40), meta_checksum := "x" } = .error .noSuchChecksum := by
  decide +kernel
example : packBytesToBytes Toy.env [1, 2, 3] (.int 2) (some 5) {} {} { max_meta_size := .int (2 ^ 40) } = .error .valueError := by decide +kernel
example : packNdarrayToBytes Toy.jsonEnv Toy.numpy Toy.view 300 (.int 6) {} { max_app_chunks := .int 1 } { meta_codec := "None", max_meta_size := .int 200 } =
    .error .chunkSizeTypeSizeMismatch := by decide +kernel
example : packNdarrayToBytes Toy.jsonEnv Toy.numpy Toy.view 300 (.int 6) {} { max_app_chunks := .int 1 } { meta_codec := "None", max_meta_size := .int 2 } =
    .error .metadataSectionTooSmall := by decide +kernel

/-! ### C29: what is rejected as an array of objects -/

mutual
theorem descr_error (d : DType) (e : Err) (h : d.descr = .error e) : e = .valueError := by
  match d with
  | .scalar s n => rw [DType.descr] at h; cases h
  | .record fs n =>
    rw [DType.descr] at h
    cases hf : fs.descr 0 with
    | error e' =>
      rw [hf, Except.error_bind'] at h
      cases h
      exact fieldsDescr_error fs 0 e hf
    | ok r =>
      rw [hf, Except.ok_bind'] at h
      cases h
theorem fieldsDescr_error (fs : Fields) (pos : Nat) (e : Err) (h : fs.descr pos = .error e) : e = .valueError := by
  match fs with
  | .nil => rw [Fields.descr] at h; cases h
  | .cons name title off shape t rest =>
    rw [Fields.descr] at h
    split at h
    · cases h; rfl
    · cases ht : t.descr with
      | error e' =>
        simp only [ht, pure_bind, Except.error_bind'] at h
        cases h
        exact descr_error t e ht
      | ok d =>
        simp only [ht, pure_bind, Except.ok_bind'] at h
        cases hr : rest.descr (off + fieldSize shape t) with
        | error e' =>
          rw [hr, Except.error_bind'] at h
          cases h
          exact fieldsDescr_error rest _ e hr
        | ok r => rw [hr, Except.ok_bind'] at h; cases h
end

theorem reversePretty_errors (s : List Char) (e : Err) (h : reversePretty s = .error e) : e = .indexError ∨ e = .valueError ∨ e = .overflowError := by
  unfold reversePretty at h
  split at h
  · cases h; simp
  · split at h
    · cases h; simp
    · split at h
      · cases h; simp
      · unfold PyFloat.truncMul at h
        split at h
        · split at h
          · cases h
          · cases h; simp
        · cases h; simp
        · cases h; simp

/-- C29: unless blosc, zlib or the JSON serializer raise that very exception, an array is rejected as an array of objects only if its type
contains objects. -/
theorem C29_objects_only (E : Env Json) (L : E.Laws) (lib : NumpyLib) (arr : NdArray) (alloc : Int) (cs : ChunkSizeArg) (a : BloscArgs)
    (b : BloscpackArgs) (m : MetadataArgs) (hs : prodShape arr.shape * arr.itemsize < 2 ^ 50)
    (hw : b.offsets = true → ∀ n w, 1 ≤ n → n ≤ 2 ^ 50 → Spec.RequestedApps b.max_app_chunks n w → w < 2 ^ 59)
    (hc : ∀ x y, E.compress x y ≠ .error .objectNumpyArrayRejection) (hd : ∀ x, E.dumps x ≠ .error .objectNumpyArrayRejection)
    (hz : ∀ x y, E.zcompress x y ≠ .error .objectNumpyArrayRejection) :
    packNdarrayToBytes E lib arr alloc cs a b m = .error .objectNumpyArrayRejection ↔ Spec.Mentions (pyStr "|O") arr.dtype := by
  refine ⟨fun h => ?_, C29_objects_rejected E L lib arr alloc cs a b m⟩
  rcases (C99_array E L lib arr alloc cs a b m hs hw _).1 h with ⟨h, -⟩ | ⟨-, h | ⟨md, -, h | ⟨n, c, -, h | ⟨-, h | ⟨-, h⟩⟩⟩⟩⟩
  · exact h
  · exfalso
    unfold ndarrayMeta at h
    cases hde : arr.dtype.descr with
    | error e => rw [hde, Except.error_bind'] at h; cases h; have := descr_error _ _ hde; cases this
    | ok d => rw [hde, Except.ok_bind'] at h; cases h
  · rcases h.2 with ⟨-, h⟩ | ⟨s, -, h⟩ | ⟨v, -, -, h⟩
    · cases h
    · rcases reversePretty_errors _ _ h with h | h | h <;> cases h
    · cases h
  · rcases h with ⟨-, ⟨-, h⟩ | ⟨i, -, -, h⟩ | ⟨f, -, -, h⟩⟩ | ⟨-, ⟨-, h⟩ | ⟨-, -, h⟩⟩ <;> cases h
  · rcases h with ⟨-, h⟩ | ⟨-, h | ⟨s, -, ⟨-, h⟩ | ⟨-, h⟩ | ⟨body, -, ⟨-, h⟩ | ⟨room, -, ⟨-, h⟩ | ⟨-, ⟨-, h⟩ | ⟨-, -, h⟩⟩⟩⟩⟩⟩
    · cases h
    · exact absurd h (hd _)
    · cases h
    · exact absurd h (hz _ _)
    · cases h
    · cases h
    · cases h
    · cases h
  · rcases h with ⟨-, h⟩ | ⟨-, -, h⟩ | ⟨-, -, k, -, h, -⟩
    · cases h
    · cases h
    · exact absurd h (hc _ _)

end Bloscpack
