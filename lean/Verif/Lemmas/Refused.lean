import Verif.Spec.Refused
import Verif.Lemmas.PackTotal
import Verif.Props.Args
import Verif.Props.Numpy
import Verif.Props.RoundTrip
/-
The stages of packing, and why each of them is refused.
-/
namespace Bloscpack
variable {μ : Type}

theorem chunkSize_error_iff {size : Nat} (hs : size < 2 ^ 50) (cs : ChunkSizeArg) (e : Err) :
    calculateNchunks size cs = .error e ↔ Spec.ChunkSizeRefused size cs e := by
  have hB : BLOSC_MAX_BUFFERSIZE = 2 ^ 31 - 17 := by decide
  obtain ⟨-, c2, c3, c4, c5⟩ := C03_chunking_rejected size cs
  by_cases hz : size = 0
  · rw [c2 (by omega)]
    constructor
    · intro h; cases h
    · rintro ⟨h, -⟩; omega
  have hp : (0 : Int) < size := by omega
  cases cs with
  | other =>
    rw [c3 hp rfl]
    constructor
    · intro h; cases h; exact ⟨by omega, .inl ⟨rfl, rfl⟩⟩
    · rintro ⟨-, ⟨-, rfl⟩ | ⟨s, h, -⟩ | ⟨v, h | ⟨s, h, -⟩, -⟩⟩
      · rfl
      · cases h
      · cases h
      · cases h
  | int v =>
    have := c5 hp v (.inl rfl)
    constructor
    · intro h
      refine ⟨by omega, .inr (.inr ⟨v, .inl rfl, ?_⟩)⟩
      by_cases hv : 1 ≤ v ∧ v ≤ BLOSC_MAX_BUFFERSIZE
      · obtain ⟨r, hr⟩ := (this.2 hv).2 (by
          have : 1 * (2 ^ 63 - 1 : Int) ≤ v * (2 ^ 63 - 1) := Int.mul_le_mul_of_nonneg_right hv.1 (by omega)
          omega)
        rw [hr] at h; cases h
      · rw [this.1 hv] at h; cases h
        exact ⟨by rw [← hB]; exact hv, rfl⟩
    · rintro ⟨-, ⟨h, -⟩ | ⟨s, h, -⟩ | ⟨v', h | ⟨s, h, -⟩, h2, rfl⟩⟩
      · cases h
      · cases h
      · cases h; exact this.1 (by rw [hB]; exact h2)
      · cases h
  | str s =>
    cases hr : reversePretty s with
    | error e' =>
      rw [c4 hp s e' rfl hr]
      constructor
      · intro h; cases h; exact ⟨by omega, .inr (.inl ⟨s, rfl, hr⟩)⟩
      · rintro ⟨-, ⟨h, -⟩ | ⟨s', h, h'⟩ | ⟨v', h | ⟨s', h, h'⟩, h2, rfl⟩⟩
        · cases h
        · cases h; rw [hr] at h'; cases h'; rfl
        · cases h
        · cases h; rw [hr] at h'; cases h'
    | ok v =>
      have := c5 hp v (.inr ⟨s, rfl, hr⟩)
      constructor
      · intro h
        refine ⟨by omega, .inr (.inr ⟨v, .inr ⟨s, rfl, hr⟩, ?_⟩)⟩
        by_cases hv : 1 ≤ v ∧ v ≤ BLOSC_MAX_BUFFERSIZE
        · obtain ⟨r, hr⟩ := (this.2 hv).2 (by
            have : 1 * (2 ^ 63 - 1 : Int) ≤ v * (2 ^ 63 - 1) := Int.mul_le_mul_of_nonneg_right hv.1 (by omega)
            omega)
          rw [hr] at h; cases h
        · rw [this.1 hv] at h; cases h
          exact ⟨by rw [← hB]; exact hv, rfl⟩
      · rintro ⟨-, ⟨h, -⟩ | ⟨s', h, h'⟩ | ⟨v', h | ⟨s', h, h'⟩, h2, rfl⟩⟩
        · cases h
        · cases h; rw [hr] at h'; cases h'
        · cases h
        · cases h; rw [hr] at h'; cases h'; exact this.1 (by rw [hB]; exact h2)

theorem apps_error_iff {n : Int} (h0 : 0 ≤ n) (h1 : n ≤ 2 ^ 63 - 1) (b : BloscpackArgs) (e : Err) :
    handleMaxApps b.offsets n b.max_app_chunks = .error e ↔ Spec.AppsRefused n b e := by
  unfold Spec.AppsRefused
  cases ho : b.offsets with
  | false => rw [C32_ignored false n _ (by omega) h1 (.inl rfl)]; simp
  | true =>
    obtain ⟨r1, r2, r3, r4⟩ := C32_rejected n h0 h1
    cases hm : b.max_app_chunks with
    | other => rw [r4]; simp [eq_comm]
    | int i =>
      by_cases hi : 0 ≤ i ∧ i ≤ 2 ^ 63 - 1
      · rw [C32_exact true n (.int i) i h0 h1 rfl (.inl rfl) hi.1 (by rintro _ h; cases h; exact hi.2)]
        constructor
        · intro h; cases h
        · rintro ⟨-, ⟨h, -⟩ | ⟨i', h, h', -⟩ | ⟨f, h, -⟩⟩
          · cases h
          · cases h; exact absurd hi h'
          · cases h
      · rw [r1 i (by omega)]
        constructor
        · intro h; cases h; exact ⟨rfl, .inr (.inl ⟨i, rfl, hi, rfl⟩)⟩
        · rintro ⟨-, ⟨h, -⟩ | ⟨i', h, h', rfl⟩ | ⟨f, h, -⟩⟩
          · cases h
          · rfl
          · cases h
    | callable f =>
      cases hf : f n with
      | none =>
        rw [r2 f hf]
        constructor
        · intro h; cases h; exact ⟨rfl, .inr (.inr ⟨f, rfl, by rw [hf]; intro _ h; (cases h), rfl⟩)⟩
        · rintro ⟨-, ⟨h, -⟩ | ⟨i', h, h', rfl⟩ | ⟨f, h, -, rfl⟩⟩
          · cases h
          · rfl
          · rfl
      | some w =>
        by_cases hw : w < 0
        · rw [r3 f w hf hw]
          constructor
          · intro h; cases h; exact ⟨rfl, .inr (.inr ⟨f, rfl, by rw [hf]; intro _ h; cases h; exact hw, rfl⟩)⟩
          · rintro ⟨-, ⟨h, -⟩ | ⟨i', h, h', rfl⟩ | ⟨f, h, -, rfl⟩⟩
            · cases h
            · rfl
            · rfl
        · rw [C32_exact true n (.callable f) w h0 h1 rfl (.inr ⟨f, rfl, hf⟩) (by omega) (by rintro _ h; cases h)]
          constructor
          · intro h; cases h
          · rintro ⟨-, ⟨h, -⟩ | ⟨i', h, h', rfl⟩ | ⟨f, h, h', rfl⟩⟩
            · cases h
            · cases h
            · cases h; exact absurd (h' w hf) hw

theorem checksumsAvail_names (c : String) : c ∈ checksumsAvail ↔ c ∈ Spec.checksumNames := by
  have : checksumsAvail = Spec.checksumNames := by decide
  rw [this]

theorem settings_error_iff {n c l : Int} (hn0 : 1 ≤ n) (hn1 : n ≤ 2 ^ 63 - 1) (hl : 0 ≤ l) (hlc : l ≤ c) (hc : c ≤ 2 ^ 31 - 17)
    (md : Option μ) (a : BloscArgs) (b : BloscpackArgs) (e : Err) :
    packHeader n c l md a b = .error e ↔ Spec.SettingsRefused n a b e := by
  unfold packHeader Spec.SettingsRefused
  have hiff := fun e => apps_error_iff (n := n) (by omega) hn1 b e
  cases hm : handleMaxApps b.offsets n b.max_app_chunks with
  | error e' =>
    rw [Except.error_bind']
    constructor
    · intro h; cases h; exact .inl ((hiff e).1 hm)
    · rintro (h | ⟨h, -⟩)
      · have := (hiff e).2 h; rw [hm] at this; cases this; rfl
      · exact absurd ((hiff e').1 hm) (h e')
  | ok w =>
    have hno : ∀ e', ¬ Spec.AppsRefused n b e' := by
      intro e' h; have := (hiff e').2 h; rw [hm] at this; cases this
    rw [Except.ok_bind']
    have key : ∀ h : BloscpackHeader, h = ⟨FORMAT_VERSION, b.offsets, md.isSome, b.checksum, a.typesize, c, l, n, w⟩ →
        (b.checksum ∉ Spec.checksumNames → h.new = .error .noSuchChecksum) ∧
        (b.checksum ∈ Spec.checksumNames → ¬ (0 ≤ a.typesize ∧ a.typesize ≤ 255) → h.new = .error .valueError) ∧
        (b.checksum ∈ Spec.checksumNames → (0 ≤ a.typesize ∧ a.typesize ≤ 255) → h.new = .ok h) := by
      rintro h rfl
      refine ⟨fun h1 => ?_, fun h1 h2 => ?_, fun h1 h2 => ?_⟩
      · simp [BloscpackHeader.new, BloscpackHeader.check, checkRange, checkValidChecksum, checksumsAvail_names, h1, FORMAT_VERSION, MAX_FORMAT_VERSION]
      · have : BLOSC_MAX_TYPESIZE = 255 := by decide
        simp only [BloscpackHeader.new, BloscpackHeader.check, checkRange, checkValidChecksum, checksumsAvail_names, if_pos h1, this, if_neg h2]
        rfl
      · exact (C32_header ⟨FORMAT_VERSION, b.offsets, md.isSome, b.checksum, a.typesize, c, l, n, 0⟩ b.max_app_chunks w hm
          ((BloscpackHeader.new_iff _ _).2 ⟨⟨(by decide : (0 : Int) ≤ 3 ∧ (3 : Int) ≤ 255), h1, h2, ⟨by dsimp only; omega, hc⟩, ⟨by dsimp only; omega, by dsimp only; omega⟩,
            ⟨by dsimp only; omega, hn1⟩, (by decide : (0 : Int) ≤ 0 ∧ (0 : Int) ≤ 2 ^ 63 - 1), fun _ => by dsimp only; omega, fun _ => rfl, fun _ _ => hlc⟩, rfl⟩)).2.2
    obtain ⟨k1, k2, k3⟩ := key _ rfl
    by_cases h1 : b.checksum ∈ Spec.checksumNames
    · by_cases h2 : 0 ≤ a.typesize ∧ a.typesize ≤ 255
      · rw [k3 h1 h2]
        constructor
        · intro h; cases h
        · rintro (h | ⟨-, ⟨h, -⟩ | ⟨-, h, -⟩⟩)
          · exact absurd h (hno _)
          · exact absurd h1 h
          · exact absurd h2 h
      · rw [k2 h1 h2]
        constructor
        · intro h; cases h; exact .inr ⟨hno, .inr ⟨h1, h2, rfl⟩⟩
        · rintro (h | ⟨-, ⟨h, -⟩ | ⟨-, h, rfl⟩⟩)
          · exact absurd h (hno _)
          · exact absurd h1 h
          · rfl
    · rw [k1 h1]
      constructor
      · intro h; cases h; exact .inr ⟨hno, .inl ⟨h1, rfl⟩⟩
      · rintro (h | ⟨-, ⟨h, rfl⟩ | ⟨h, -⟩⟩)
        · exact absurd h (hno _)
        · rfl
        · exact absurd h h1

theorem codecNames_iff (c : String) : c ∈ Spec.codecNames ↔ c = "None" ∨ c = "zlib" := by simp [Spec.codecNames]

theorem stored_unique {E : Env μ} {m : MetadataArgs} {raw b1 b2 : Bytes} (h1 : Spec.Stored E m raw b1) (h2 : Spec.Stored E m raw b2) :
    b1 = b2 := by
  rcases h1 with ⟨c, rfl⟩ | ⟨c, z, hz, rfl⟩
  · rcases h2 with ⟨-, rfl⟩ | ⟨c', -⟩
    · rfl
    · rw [c] at c'; simp at c'
  · rcases h2 with ⟨c', -⟩ | ⟨-, z', hz', rfl⟩
    · rw [c] at c'; simp at c'
    · rw [hz] at hz'; cases hz'; rfl

theorem metadata_room {E : Env μ} {m args' : MetadataArgs} {s : List Char} {body : Bytes}
    (e1 : args'.magic_format = m.magic_format) (e2 : args'.meta_checksum = m.meta_checksum) (e3 : args'.meta_level = m.meta_level)
    (e5 : args'.meta_codec ∈ Spec.codecNames) (h1 : m.magic_format = [74, 83, 79, 78]) (hbl : (body.length : Int) ≤ s.length) (room : Int) {e : Err} :
    ((do
      if (body.length : Int) > room then throw .metadataSectionTooSmall
      let h ← MetadataHeader.new ⟨args'.magic_format, createMetadataOptions, args'.meta_checksum, args'.meta_codec, args'.meta_level, s.length, room, body.length, []⟩
      let header ← h.encode
      let (digest, digestSize) ← (if args'.meta_checksum ≠ "None" then do
          let impl ← checksumLookup E.hashlib args'.meta_checksum
          return (impl.function body, impl.size)
        else return ([], 0) : Except Err (Bytes × Nat))
      return ⟨header, body, (room - (body.length : Int)).toNat, digest, digestSize, args'⟩ : Except Err MetaSection) = .error e) ↔
      ((room < body.length ∧ e = .metadataSectionTooSmall) ∨
           ((body.length : Int) ≤ room ∧
            ((m.meta_checksum ∉ Spec.checksumNames ∧ e = .noSuchChecksum) ∨
             (m.meta_checksum ∈ Spec.checksumNames ∧
               (¬ (0 ≤ m.meta_level ∧ m.meta_level ≤ 9) ∨ 2 ^ 32 - 1 < (s.length : Int) ∨ 2 ^ 32 - 1 < room) ∧
               e = .valueError)))) := by
  by_cases hr : (body.length : Int) > room
  · rw [if_pos hr]
    have h2 : ¬ (body.length : Int) ≤ room := by omega
    have h3 : room < (body.length : Int) := hr
    simp [h2, h3, eq_comm, throw, throwThe, MonadExceptOf.throw]
  rw [if_neg hr]
  have h2 : (body.length : Int) ≤ room := by omega
  have h3 : ¬ room < (body.length : Int) := hr
  have hM : MAX_META_SIZE = 2 ^ 32 - 1 := by decide
  have hL : MAX_CLEVEL = 9 := by decide
  have hmg : checkStr args'.magic_format 8 = .ok () := by rw [e1, h1]; decide
  have hop : checkOptions createMetadataOptions = .ok () := by decide
  simp only [h2, h3, true_and, false_and, false_or]
  by_cases hc : m.meta_checksum ∈ Spec.checksumNames
  case neg =>
    have : checkValidChecksum args'.meta_checksum = .error .noSuchChecksum := by
      rw [e2, checkValidChecksum, if_neg (by rw [checksumsAvail_names]; exact hc)]
    simp only [MetadataHeader.new, MetadataHeader.check, hmg, hop, this, Except.ok_bind', Except.error_bind', hc, not_false_iff, true_and, false_and, or_false]
    simp [eq_comm, pure, Except.pure]
  by_cases hv : 0 ≤ m.meta_level ∧ m.meta_level ≤ 9 ∧ (s.length : Int) ≤ 2 ^ 32 - 1 ∧ room ≤ 2 ^ 32 - 1
  · have hok : MetadataHeader.OK ⟨args'.magic_format, createMetadataOptions, args'.meta_checksum, args'.meta_codec,
        args'.meta_level, s.length, room, body.length, []⟩ := by
      refine ⟨?_, (by decide : createMetadataOptions.length = 8 ∧ ∀ c ∈ createMetadataOptions, c = '0' ∨ c = '1'), ?_, e5, ?_, ?_, ?_, ?_, ?_⟩
      · show args'.magic_format.length ≤ 8
        rw [e1, h1]; decide
      · show args'.meta_checksum ∈ _
        rw [e2]; exact hc
      · show 0 ≤ args'.meta_level ∧ _
        rw [e3]; exact ⟨hv.1, hv.2.1⟩
      · show (0 : Int) ≤ s.length ∧ (s.length : Int) ≤ _
        omega
      · show (0 : Int) ≤ room ∧ room ≤ _
        omega
      · show (0 : Int) ≤ body.length ∧ (body.length : Int) ≤ _
        omega
      · show (0 : Nat) ≤ 8
        omega
    obtain ⟨impl, himpl, -⟩ := checksumLookup_of (hl := E.hashlib) hc
    rw [(MetadataHeader.new_iff _ _).2 ⟨hok, rfl⟩]
    simp only [pure_bind, Except.ok_bind']
    rw [MetadataHeader.encode_ok hok]
    simp only [Except.ok_bind', e2, himpl]
    have h5 : ¬ (¬ (0 ≤ m.meta_level ∧ m.meta_level ≤ 9) ∨ 2 ^ 32 - 1 < (s.length : Int) ∨ 2 ^ 32 - 1 < room) := by omega
    simp only [hc, h5, not_true, false_and, and_false, or_false, iff_false]
    by_cases hn : m.meta_checksum ≠ "None"
    · rw [if_pos hn]; intro h; cases h
    · rw [if_neg hn]; intro h; cases h
  · have hck : checkValidChecksum args'.meta_checksum = .ok () := by
      rw [e2, checkValidChecksum, if_pos (by rw [checksumsAvail_names]; exact hc)]
    have hcd : checkValidCodec args'.meta_codec = .ok () := by
      rcases (codecNames_iff _).1 e5 with h | h <;> rw [h] <;> decide
    have hnew : MetadataHeader.new ⟨args'.magic_format, createMetadataOptions, args'.meta_checksum, args'.meta_codec,
        args'.meta_level, s.length, room, body.length, []⟩ = .error .valueError := by
      simp only [MetadataHeader.new, MetadataHeader.check, hmg, hop, hck, hcd, Except.ok_bind', e3, hM, hL, checkRange]
      by_cases l1 : 0 ≤ m.meta_level ∧ m.meta_level ≤ 9
      · rw [if_pos l1, Except.ok_bind']
        by_cases l2 : (0 : Int) ≤ s.length ∧ (s.length : Int) ≤ 2 ^ 32 - 1
        · rw [if_pos l2, Except.ok_bind', if_neg (by omega)]; rfl
        · rw [if_neg l2]; rfl
      · rw [if_neg l1]; rfl
    have h5 : (¬ (0 ≤ m.meta_level ∧ m.meta_level ≤ 9) ∨ 2 ^ 32 - 1 < (s.length : Int) ∨ 2 ^ 32 - 1 < room) := by omega
    rw [hnew]
    simp only [hc, h5, not_true, false_and, false_or, true_and]
    simp [eq_comm, pure, Except.pure]

/-- what is done once the form to store is known -/
theorem metadata_tail {E : Env μ} {md : Option μ} {m args' : MetadataArgs} {s : List Char} {body : Bytes}
    (h1 : m.magic_format = [74, 83, 79, 78]) (h6 : E.dumps md = .ok s)
    (hb : (do
      if m.shouldCompress then
        let comp ← codecCompress E m.meta_codec (encodeUtf8 s) m.meta_level
        let meta_comp_size : Int := comp.length
        if (s.length : Int) < meta_comp_size then
          return (encodeUtf8 s, (s.length : Int), m.nullifyCodec)
        else
          return (comp, meta_comp_size, m)
      else
        return (encodeUtf8 s, (s.length : Int), m) : Except Err (Bytes × Int × MetadataArgs)) =
        .ok (body, (body.length : Int), args')) (hbl : (body.length : Int) ≤ s.length)
    (e1 : args'.magic_format = m.magic_format) (e2 : args'.meta_checksum = m.meta_checksum) (e3 : args'.meta_level = m.meta_level)
    (e4 : args'.max_meta_size = m.max_meta_size) (e5 : args'.meta_codec ∈ Spec.codecNames) (e : Err) :
    prepareMetadata E md m = .error e ↔
      ((m.max_meta_size = .other ∧ e = .unboundLocalError) ∨
         ∃ room, (m.max_meta_size = .int room ∨ ∃ f, m.max_meta_size = .callable f ∧ f s.length = room) ∧
          ((room < body.length ∧ e = .metadataSectionTooSmall) ∨
           ((body.length : Int) ≤ room ∧
            ((m.meta_checksum ∉ Spec.checksumNames ∧ e = .noSuchChecksum) ∨
             (m.meta_checksum ∈ Spec.checksumNames ∧
               (¬ (0 ≤ m.meta_level ∧ m.meta_level ≤ 9) ∨ 2 ^ 32 - 1 < (s.length : Int) ∨ 2 ^ 32 - 1 < room) ∧
               e = .valueError))))) := by
  have hser : serializerLookup m.magic_format = .ok () := by rw [h1]; decide
  unfold prepareMetadata
  simp only [args_keys_ok, Except.ok_bind', hser, h6]
  rw [hb]
  simp only [Except.ok_bind']
  cases hmm : m.max_meta_size with
  | other =>
    have : args'.effectiveMaxMetaSize s.length = .error .unboundLocalError := by simp [MetadataArgs.effectiveMaxMetaSize, e4, hmm]
    rw [this, Except.error_bind']
    simp [eq_comm]
  | int room =>
    have : args'.effectiveMaxMetaSize s.length = .ok room := by simp [MetadataArgs.effectiveMaxMetaSize, e4, hmm]
    rw [this, Except.ok_bind', metadata_room e1 e2 e3 e5 h1 hbl room]
    simp [eq_comm]
  | callable f =>
    have : args'.effectiveMaxMetaSize s.length = .ok (f s.length) := by simp [MetadataArgs.effectiveMaxMetaSize, e4, hmm]
    rw [this, Except.ok_bind', metadata_room e1 e2 e3 e5 h1 hbl (f s.length)]
    simp [eq_comm]

theorem metadata_error_iff {E : Env μ} (L : E.Laws) (md : Option μ) (m : MetadataArgs) (e : Err) :
    prepareMetadata E md m = .error e ↔ Spec.MetadataRefused E md m e := by
  unfold Spec.MetadataRefused
  by_cases h1 : m.magic_format = [74, 83, 79, 78]
  case neg =>
    have hser : serializerLookup m.magic_format = .error .keyError := by
      unfold serializerLookup
      rw [if_neg (by simpa [serializersAvail] using h1)]
    unfold prepareMetadata
    simp only [args_keys_ok, Except.ok_bind', hser, Except.error_bind', h1, not_true, not_false_iff, true_and, false_and, or_false]
    simp [eq_comm, h1]
    try exact fun _ => h1
  have hser : serializerLookup m.magic_format = .ok () := by rw [h1]; decide
  cases h6 : E.dumps md with
  | error e' =>
    unfold prepareMetadata
    simp only [args_keys_ok, Except.ok_bind', hser, h6, Except.error_bind']
    simp [h1]
  | ok s =>
    have hlen : (encodeUtf8 s).length = s.length := utf8_ascii s (L.dumps_ascii _ _ h6)
    have red : ∀ P : List Char → Prop, (m.magic_format ≠ [74, 83, 79, 78] ∧ e = .keyError ∨
        m.magic_format = [74, 83, 79, 78] ∧ ((Except.ok s : Except Err (List Char)) = .error e ∨ ∃ s', (Except.ok s : Except Err (List Char)) = .ok s' ∧ P s')) ↔ P s := by
      intro P; simp [h1]
    rw [red]
    by_cases hc : m.meta_codec ∈ Spec.codecNames
    case neg =>
      have hn : m.meta_codec ≠ "None" ∧ m.meta_codec ≠ "zlib" := by simpa [Spec.codecNames] using hc
      have hsc : m.shouldCompress = true := by simp [MetadataArgs.shouldCompress, hn.1]
      unfold prepareMetadata
      simp only [args_keys_ok, Except.ok_bind', hser, h6, hsc, if_true, codecCompress, if_neg hn.1, if_neg hn.2, Except.error_bind']
      simp [hc, hn.2, Spec.Stored, hn.1, eq_comm]
    rcases (codecNames_iff _).1 hc with hcod | hcod
    · have hsc : m.shouldCompress = false := by simp [MetadataArgs.shouldCompress, hcod]
      rw [metadata_tail (s := s) (body := encodeUtf8 s) (args' := m) h1 h6 (by simp [hsc, hlen]) (by omega) rfl rfl rfl rfl hc e]
      have hst : ∀ body, Spec.Stored E m (encodeUtf8 s) body ↔ body = encodeUtf8 s := by
        intro body; simp [Spec.Stored, hcod]
      simp [hst, hcod, Spec.codecNames]
    · have hsc : m.shouldCompress = true := by simp [MetadataArgs.shouldCompress, hcod]
      cases hz : E.zcompress (encodeUtf8 s) m.meta_level with
      | error e' =>
        unfold prepareMetadata
        simp only [args_keys_ok, Except.ok_bind', hser, h6, hsc, if_true, codecCompress, hcod, if_neg (by decide : ¬ "zlib" = "None"), hz, Except.error_bind']
        simp [hcod, Spec.Stored, hz, Spec.codecNames]
      | ok z =>
        have hz' : codecCompress E m.meta_codec (encodeUtf8 s) m.meta_level = .ok z := by simp [codecCompress, hcod, hz]
        have hst : ∀ body, Spec.Stored E m (encodeUtf8 s) body ↔ body = if z.length ≤ (encodeUtf8 s).length then z else encodeUtf8 s := by
          intro body; simp [Spec.Stored, hcod, hz]
        by_cases hlt : (s.length : Int) < z.length
        · rw [metadata_tail (s := s) (body := encodeUtf8 s) (args' := m.nullifyCodec) h1 h6
            (by simp only [hsc, if_true, hz', Except.ok_bind', if_pos hlt, hlen, Except.pure_eq]) (by omega) rfl rfl rfl rfl
            (by decide : "None" ∈ Spec.codecNames) e]
          rw [if_neg (by omega)] at hst
          simp [hst, hcod, Spec.codecNames, hz]
        · rw [metadata_tail (s := s) (body := z) (args' := m) h1 h6
            (by simp only [hsc, if_true, hz', Except.ok_bind', if_neg hlt, Except.pure_eq]) (by omega) rfl rfl rfl rfl hc e]
          rw [if_pos (by omega)] at hst
          simp [hst, hcod, Spec.codecNames, hz]

/-- how the bytes are cut, as computed -/
theorem cutInto_of {size : Nat} {cs : ChunkSizeArg} {n c l : Int} (h : calculateNchunks size cs = .ok (n, c, l)) :
    Spec.CutInto size cs n c := by
  obtain ⟨h1, h2, -, h4, h7, h5, h6⟩ := C02_chunking_covers _ _ _ _ _ h
  by_cases hz : size = 0
  · have := h5 (by omega)
    exact .inl ⟨hz, this.1, this.2.1⟩
  · obtain ⟨q1, v, q2, q3, q4, q5⟩ := h6 (by omega)
    obtain ⟨v', r1, r2, r3⟩ := calculateNchunks_requested (by omega) h
    obtain rfl := requested_unique q2 r1
    have hB : BLOSC_MAX_BUFFERSIZE = 2 ^ 31 - 17 := by decide
    have hc : c = min v size := by
      by_cases hv : v ≤ size
      · rw [q4 hv]; omega
      · have : n ≤ 1 := q5 1 (by omega)
        have : n = 1 := by omega
        subst this
        simp at h1
        omega
    have e1 : (n - 1) * c = c * (n - 1) := Int.mul_comm _ _
    have e2 : n * c = c * (n - 1) + c := by rw [Int.mul_sub, Int.mul_comm n c]; omega
    exact .inr ⟨by omega, v, q2, r2, by omega, hc, by omega, by omega⟩

theorem cutInto_unique {size : Nat} {cs : ChunkSizeArg} {n c n' c' : Int} (h : Spec.CutInto size cs n c) (h' : Spec.CutInto size cs n' c') :
    n = n' ∧ c = c' := by
  rcases h with ⟨h0, rfl, rfl⟩ | ⟨h0, v, h1, h2, h3, rfl, h4, h5⟩
  · rcases h' with ⟨-, rfl, rfl⟩ | ⟨h0', -⟩
    · exact ⟨rfl, rfl⟩
    · omega
  · rcases h' with ⟨h0', -⟩ | ⟨h0', v', h1', h2', h3', rfl, h4', h5'⟩
    · omega
    · obtain rfl := requested_unique h1 h1'
      refine ⟨?_, rfl⟩
      generalize hm : min v (size : Int) = w at *
      have hw : 0 < w := by omega
      have a1 : n - 1 < n' := by
        have : (n - 1) * w < n' * w := by omega
        exact Int.lt_of_mul_lt_mul_right this (by omega)
      have a2 : n' - 1 < n := by
        have : (n' - 1) * w < n * w := by omega
        exact Int.lt_of_mul_lt_mul_right this (by omega)
      omega

theorem pieces_eq {c : Nat} (init : List Bytes) (tl : Bytes) (hi : ∀ b ∈ init, b.length = c) (ht : tl.length ≤ c) (k : Nat) (hk : k < (init ++ [tl]).length) :
    (((init ++ [tl]).flatten).drop (k * c)).take c = (init ++ [tl])[k] := by
  induction init generalizing k with
  | nil =>
    have : k = 0 := by simp at hk; omega
    subst this
    simp [List.take_of_length_le ht]
  | cons x xs ih =>
    have hx := hi x List.mem_cons_self
    cases k with
    | zero => simp [← hx]
    | succ k =>
      have := ih (fun b hb => hi b (List.mem_cons_of_mem _ hb)) k (by simpa using hk)
      simp only [List.cons_append, List.flatten_cons, List.getElem_cons_succ]
      rw [← this]
      congr 1
      rw [List.drop_append, Nat.succ_mul]
      rw [List.drop_eq_nil_of_le (by omega), List.nil_append]
      congr 1; omega

/-- a run with a source that stops at once -/
theorem pack_stop_run {E : Env μ} (L : E.Laws) (src : PlainSource) (n c l : Int) (md : Option μ) (a : BloscArgs) (b : BloscpackArgs)
    (m : MetadataArgs) (hn : 1 ≤ n) (e0 : Err) (hsrc : src c l n = ⟨[], some e0⟩) :
    (∃ e s, packHeader n c l md a b = .error e ∧ pack E src (compressedFPSink E) n c l md a b m { fp := { data := [] } } = (.error e, s)) ∨
    ∃ h, packHeader n c l md a b = .ok h ∧
     ((∃ e s, md.isSome ∧ prepareMetadata E md m = .error e ∧
        pack E src (compressedFPSink E) n c l md a b m { fp := { data := [] } } = (.error e, s)) ∨
      ∃ sec m', SecFor E md m sec m' ∧
       (2 ^ 63 ≤ offsetsLen h ∨ ∃ s, pack E src (compressedFPSink E) n c l md a b m { fp := { data := [] } } = (.error e0, s))) := by
  unfold pack
  cases hph : packHeader n c l md a b with
  | error e =>
    refine .inl ⟨e, { fp := { data := [] } }, rfl, ?_⟩
    rw [Proc.bind_of_error (Proc.ofExcept_apply _ _)]
  | ok h =>
    refine .inr ⟨h, rfl, ?_⟩
    obtain ⟨hok, -, -, -, -, -, -, -, hnch, -⟩ := packHeader_ok hph
    obtain ⟨impl, himpl, -, -⟩ := checksumLookup_of (hl := E.hashlib) hok.2.1
    have himpl' : h.checksumImpl E = .ok impl := himpl
    rw [Proc.bind_of_ok (Proc.ofExcept_apply _ _)]
    have h1 : (compressedFPSink E).configure a h { fp := { data := [] } } =
        (.ok (), (mkSink h impl (wrote [] [] [] []) 0 [])) := by
      show (Proc.ofExcept (h.checksumImpl E) >>= _) _ = _
      rw [Proc.bind_of_ok (Proc.ofExcept_apply _ _ |>.trans (by rw [himpl']))]
      rfl
    rw [Proc.bind_of_ok h1]
    have h2 : (compressedFPSink E).writeBloscpackHeader (mkSink h impl (wrote [] [] [] []) 0 []) =
        (.ok (), (mkSink h impl (wrote [] [] [] [h.bytes]) 0 [])) := by
      show (Proc.get >>= _) _ = _
      rw [Proc.bind_of_ok (Proc.get_apply _),
        Proc.bind_of_ok (Proc.ofExcept_apply _ _ |>.trans (by rw [mkSink_header, BloscpackHeader.encode_ok hok]))]
      exact onFP_of (s := mkSink h impl (wrote [] [] [] []) 0 []) (fpWrite_wrote _ _ _ _ _)
    rw [Proc.bind_of_ok h2]
    have h3 : (∃ e, md.isSome ∧ prepareMetadata E md m = .error e ∧
        packMetadata (compressedFPSink E) md m (mkSink h impl (wrote [] [] [] [h.bytes]) 0 []) =
          (.error e, (mkSink h impl (wrote [] [] [] [h.bytes]) 0 []))) ∨
        ∃ sec m', SecFor E md m sec m' ∧ packMetadata (compressedFPSink E) md m (mkSink h impl (wrote [] [] [] [h.bytes]) 0 []) =
          (.ok m', (mkSink h impl (wrote [] [] [] ([h.bytes] ++ optSecWrites E sec)) (optSecBytes E sec).length [])) := by
      cases md with
      | none => exact .inr ⟨none, m, .inl ⟨rfl, rfl, rfl⟩, rfl⟩
      | some x =>
        cases hp : prepareMetadata E (some x) m with
        | error e => exact .inl ⟨e, rfl, rfl, writeMeta_sink_error hp _⟩
        | ok S =>
          obtain ⟨sec, hsec⟩ := prepareMetadata_ok L hp
          refine .inr ⟨some sec, S.args, .inr ⟨S, sec, rfl, hp, hsec, rfl, rfl⟩, ?_⟩
          refine (writeMeta_sink L hp hsec rfl).trans ?_
          simp [optSecWrites, optSecBytes, mkSink]
    rcases h3 with ⟨e, hm, he, h3⟩ | ⟨sec, m', hs, h3⟩
    · rw [Proc.bind_of_error h3]
      exact .inl ⟨e, _, hm, he, rfl⟩
    rw [Proc.bind_of_ok h3]
    refine .inr ⟨sec, m', hs, ?_⟩
    have hn0 : 0 ≤ h.nchunks := by omega
    by_cases hb : 2 ^ 63 ≤ offsetsLen h
    · exact .inl hb
    replace hb : offsetsLen h < 2 ^ 63 := by omega
    have h4 := initOffsets_wrote (s := (mkSink h impl (wrote [] [] [] ([h.bytes] ++ optSecWrites E sec)) (optSecBytes E sec).length [])) rfl hn0 hb
    have h4' : (compressedFPSink E).initOffsets (mkSink h impl (wrote [] [] [] ([h.bytes] ++ optSecWrites E sec)) (optSecBytes E sec).length []) = _ := h4
    rw [Proc.bind_of_ok h4']
    simp only [hsrc]
    exact .inr ⟨_, rfl⟩

end Bloscpack
