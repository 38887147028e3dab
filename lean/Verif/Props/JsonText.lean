import Verif.Lemmas.JsonText
import Verif.Model.Repr
import Verif.Examples.JsonEnv
import Verif.Props.Archive
import Verif.Props.Trailing
/-!
C98: metadata are JSON, for everyone.
-/
namespace Bloscpack

theorem decodeUtf8_iff (b : Bytes) (s : List Char) : ByteArray.utf8Decode? b.toByteArray = some s.toArray ↔ b = encodeUtf8 s := by
  constructor
  · intro h
    have h1 := ByteArray.utf8Encode_get_utf8Decode? (b := b.toByteArray) (h := by rw [h]; rfl)
    simp only [h, Option.get_some] at h1
    have h2 : (encodeUtf8 s).toByteArray = b.toByteArray := h1
    have := congrArg (fun x => x.data.toList) h2
    simpa using this.symm
  · rintro rfl
    have : (encodeUtf8 s).toByteArray = s.utf8Encode := rfl
    rw [this, List.utf8Decode?_utf8Encode]

/-- C98: bytes are read as the metadata `v` exactly if they are a JSON text that spells `v`, in UTF-8. -/
theorem C98_read (b : Bytes) (v : Json) : loadsJson b = .ok v ↔ ∃ s, b = encodeUtf8 s ∧ Spec.JsonText s v := by
  unfold loadsJson
  constructor
  · intro h
    split at h
    · rename_i cs hd
      exact ⟨cs.toList, (decodeUtf8_iff b cs.toList).mp (by rw [hd]), (loadsText_iff _ _).mp h⟩
    · cases h
  · rintro ⟨s, hb, hs⟩
    rw [(decodeUtf8_iff b s).mpr hb]
    exact (loadsText_iff s v).mpr hs

/-- C98: everything else is refused: bytes that are not UTF-8 with one kind of error, a text that is not JSON with another. -/
theorem C98_refused (b : Bytes) :
    (loadsJson b = .error .valueError ↔ ¬ ∃ s, b = encodeUtf8 s) ∧
    (loadsJson b = .error .jsonDecodeError ↔ ∃ s, b = encodeUtf8 s ∧ ¬ ∃ v, Spec.JsonText s v) := by
  have dec : (∀ s, b = encodeUtf8 s → loadsJson b = loadsText s) ∧ ((¬ ∃ s, b = encodeUtf8 s) → loadsJson b = .error .valueError) := by
    unfold loadsJson
    constructor
    · intro s hs
      rw [(decodeUtf8_iff b s).mpr hs]
    · intro h
      split
      · rename_i cs hd
        exact absurd ⟨cs.toList, (decodeUtf8_iff b cs.toList).mp (by rw [hd])⟩ h
      · rfl
  have txt : ∀ s, loadsText s = .error .jsonDecodeError ↔ ¬ ∃ v, Spec.JsonText s v := by
    intro s
    constructor
    · rintro h ⟨v, hv⟩
      rw [(loadsText_iff s v).mpr hv] at h
      cases h
    · intro h
      have : ∀ v, loadsText s ≠ .ok v := fun v hv => h ⟨v, (loadsText_iff s v).mp hv⟩
      unfold loadsText at this ⊢
      split
      · split
        · rename_i x r hp hr
          rw [hp] at this
          simp only [hr, if_true] at this
          exact absurd rfl (this x)
        · rfl
      · rfl
  by_cases hb : ∃ s, b = encodeUtf8 s
  · obtain ⟨s, hs⟩ := hb
    rw [dec.1 s hs]
    refine ⟨⟨fun h => ?_, fun h => absurd ⟨s, hs⟩ h⟩, ?_⟩
    · exfalso
      unfold loadsText at h
      repeat' split at h
      all_goals cases h
    · rw [txt s]
      constructor
      · exact fun h => ⟨s, hs, h⟩
      · rintro ⟨s', hs', h⟩
        have : loadsText s = loadsText s' := by rw [← dec.1 s hs, ← dec.1 s' hs']
        rw [← txt s, this, txt s']
        exact h
  · rw [dec.2 hb]
    refine ⟨⟨fun _ => hb, fun _ => rfl⟩, ⟨fun h => (by injection h with h; cases h), ?_⟩⟩
    rintro ⟨s, hs, -⟩
    exact absurd ⟨s, hs⟩ hb

/-- C98: a text means one thing only. -/
theorem C98_one_meaning (s : List Char) (v v' : Json) (h : Spec.JsonText s v) (h' : Spec.JsonText s v') : v = v' := by
  have h1 := (loadsText_iff s v).mpr h
  rw [(loadsText_iff s v').mpr h'] at h1
  injection h1 with h1
  exact h1.symm

/-- C98: what is written for an object is a JSON text that spells it, if no string in it has a high surrogate directly before a low one; it is ASCII. -/
theorem C98_written (j : Json) (hj : Spec.isObject j = true) (hp : Spec.pairFree j = true) :
    Spec.JsonText (dumpsJson j) j ∧ ∀ c ∈ dumpsJson j, c.toNat < 128 := by
  refine ⟨?_, dumpsJson_ascii j⟩
  obtain ⟨s, h1, h2⟩ := (C98_read _ _).mp ((C42_roundtrip j hj).mpr hp)
  have : loadsText (dumpsJson j) = .ok j := by
    have h3 := (C42_roundtrip j hj).mpr hp
    unfold loadsJson at h3
    rw [(decodeUtf8_iff _ (dumpsJson j)).mpr rfl] at h3
    exact h3
  exact (loadsText_iff _ _).mp this

/-- C98, in the archive: with JSON as the serializer, what a metadata section stands for (`Spec.MetadataAt`, `C81_memory`, `C81_file`) is the meaning of its
text. -/
theorem C98_section {μ : Type} (E : Env μ) (raw : Bytes) (md : Option Json) :
    E.withJson.loads raw = .ok md ↔ ∃ s v, raw = encodeUtf8 s ∧ Spec.JsonText s v ∧ md = v.toOption := by
  show (loadsJson raw).map Json.toOption = .ok md ↔ _
  constructor
  · intro h
    cases hl : loadsJson raw with
    | error e => rw [hl] at h; cases h
    | ok v =>
      rw [hl] at h
      obtain ⟨s, h1, h2⟩ := (C98_read raw v).mp hl
      refine ⟨s, v, h1, h2, ?_⟩
      injection h with h
      exact h.symm
  · rintro ⟨s, v, h1, h2, rfl⟩
    rw [(C98_read raw v).mpr ⟨s, h1, h2⟩]
    rfl

theorem slice_first {α : Type} (B C : List α) (i j : Nat) (hi : i = 0) (hj : j = B.length) : slice (B ++ C) i j = B := by
  subst hi hj
  simp [slice]

/-- C98, end to end: metadata another program adds to an archive by the format's description, with any spelling of their JSON text, any checksum and any room
to spare, are returned with the data. -/
theorem C98_foreign {μ : Type} (E : Env μ) (L : E.Laws) (typesize chunkSize lastChunk nchunks : Int) (checksum : String) (chunks out : Bytes)
    (hf : Spec.HeaderFieldsOK 3 typesize chunkSize lastChunk nchunks 0 checksum)
    (hc : Spec.Chunks E.withJson (Spec.digest E.withJson checksum) chunks nchunks.toNat out)
    (s : List Char) (v : Json) (hs : Spec.JsonText s v) (room : Bytes) (hl : (encodeUtf8 s).length + room.length < 2 ^ 32)
    (metaChecksum : String) (hm : metaChecksum ∈ Spec.checksumNames) :
    unpackBytesFromBytes E.withJson
      (Spec.headerBytes 3 false true checksum typesize chunkSize lastChunk nchunks 0 ++
        (Spec.metaHeaderBytes [74, 83, 79, 78, 0, 0, 0, 0] "00000000".toList metaChecksum "None" 0 (encodeUtf8 s).length ((encodeUtf8 s).length + room.length)
            (encodeUtf8 s).length [0, 0, 0, 0, 0, 0, 0, 0] ++
          (encodeUtf8 s ++ (room ++ (Spec.digest E.withJson metaChecksum (encodeUtf8 s) ++ chunks))))) = .ok (out, v.toOption) := by
  rw [C81_memory E.withJson L.withJson]
  have hds : (Spec.digest E.withJson metaChecksum (encodeUtf8 s)).length = Spec.digestSize metaChecksum := by
    obtain ⟨impl, hi, -⟩ := checksumLookup_of (hl := E.withJson.hashlib) hm
    have := digest_eq hi (encodeUtf8 s)
    rw [← this.1, ← this.2]
    exact Hash.size_eq L.withJson (checksumLookup_mem hi).1 _
  have hloads := (C98_section E (encodeUtf8 s) v.toOption).mpr ⟨s, v, rfl, hs, rfl⟩
  have hh := headerBytes_length 3 false true checksum typesize chunkSize lastChunk nchunks 0
  have hmh : (Spec.metaHeaderBytes [74, 83, 79, 78, 0, 0, 0, 0] "00000000".toList metaChecksum "None" 0 (encodeUtf8 s).length
      ((encodeUtf8 s).length + room.length) (encodeUtf8 s).length [0, 0, 0, 0, 0, 0, 0, 0]).length = 32 := by
    simp [Spec.metaHeaderBytes, leBytes_length, Spec.padded8]
  have hfields : Spec.MetaFieldsOK [74, 83, 79, 78, 0, 0, 0, 0] "00000000".toList metaChecksum "None" 0 (encodeUtf8 s).length
      ((encodeUtf8 s).length + room.length) (encodeUtf8 s).length [0, 0, 0, 0, 0, 0, 0, 0] := by
    refine ⟨by decide, by decide, hm, by decide, by decide, ?_, ?_, ?_, by decide⟩ <;> omega
  refine ⟨false, true, checksum, typesize, chunkSize, lastChunk, nchunks, 0, 64 + (encodeUtf8 s).length + room.length + Spec.digestSize metaChecksum,
    64 + (encodeUtf8 s).length + room.length + Spec.digestSize metaChecksum, hf, ?_, .inl ⟨rfl, ?_⟩, .inr ⟨rfl, rfl⟩, ?_⟩
  · rw [List.take_append_of_le_length (by omega), List.take_of_length_le (by omega)]
  · refine ⟨_, _, _, metaChecksum, "None", 0, _, _, _, 0, 4, encodeUtf8 s, encodeUtf8 s, hfields, by decide, by decide, by decide, ?_, ?_, .inl rfl, ?_, ?_,
      .inl ⟨rfl, rfl⟩, hloads⟩
    · rw [slice_append_right _ _ _ _ (by omega), hh]
      rw [slice_first _ _ _ _ (by omega) (by omega)]
    · rw [slice_append_right _ _ _ _ (by omega), slice_append_right _ _ _ _ (by omega), hh, hmh]
      rw [slice_first _ _ _ _ (by omega) (by omega)]
    · omega
    · rw [slice_append_right _ _ _ _ (by omega), slice_append_right _ _ _ _ (by omega), slice_append_right _ _ _ _ (by omega), slice_append_right _ _ _ _ (by omega)]
      rw [slice_first _ _ _ _ (by omega) (by omega)]
  · have : 64 + (encodeUtf8 s).length + room.length + Spec.digestSize metaChecksum =
        32 + (32 + ((encodeUtf8 s).length + (room.length + Spec.digestSize metaChecksum))) := by omega
    rw [this, ← List.drop_drop, ← List.drop_drop, ← List.drop_drop, ← List.drop_drop, List.drop_left' hh, List.drop_left' hmh, List.drop_left' rfl,
      List.drop_left' rfl, List.drop_left' hds]
    exact hc

/-! ### examples -/

/-- a text no `json.dumps` writes: white space, escapes that need not be, upper case digits, a pair of escaped surrogates, a key given twice -/
def jsonTextExample : List Char := " { \"a\\u0062\" :\t[ 1 , -0 ],\n\"\\/\": \"\\uD83D\\uDE00é\", \"ab\":null } ".toList

example : (loadsJson (encodeUtf8 jsonTextExample)).map dumpsJson =
    .ok (dumpsJson (.obj [(pyStr "ab", .null), (pyStr "/", .str [0x1F600, 0xE9])])) := by decide +kernel

/-- it is a JSON text -/
example : ∃ v, Spec.JsonText jsonTextExample v ∧ dumpsJson v = dumpsJson (.obj [(pyStr "ab", .null), (pyStr "/", .str [0x1F600, 0xE9])]) := by
  have h : (loadsText jsonTextExample).map dumpsJson = .ok (dumpsJson (.obj [(pyStr "ab", .null), (pyStr "/", .str [0x1F600, 0xE9])])) := by decide +kernel
  cases hl : loadsText jsonTextExample with
  | error e => rw [hl] at h; cases h
  | ok v =>
    rw [hl] at h
    exact ⟨v, (loadsText_iff _ _).mp hl, by injection h⟩

/-- the grammar, used by hand -/
example : Spec.JsonText "[ ] ".toList (.arr []) :=
  ⟨[], "[ ]".toList, " ".toList, rfl, by simp [Spec.JsonSpace], .emptyArr [' '] (by simp [Spec.JsonSpace]), by simp [Spec.JsonSpace]⟩

/-- numbers with a fraction or an exponent; too large a number is read as infinity -/
example : (loadsText "[0.1,1E2,-0.0,12.5e-1,1e400,-1e-400,NaN,-Infinity,9007199254740993.0]".toList).map dumpsJson =
    .ok "[0.1,100.0,-0.0,1.25,Infinity,-0.0,NaN,-Infinity,9007199254740992.0]".toList := by decide +kernel

/-- the grammar of numbers, used by hand: `1.50e+1` is 15, which has the bits 0x402E000000000000 -/
example : Spec.JsonText "1.50e+1".toList (.float (.num false 0x402E000000000000)) := by
  have h : Spec.IsFloat false 150 (-1) (.num false 0x402E000000000000) := (doubleOf_iff _ _ _ _).1 (by decide +kernel)
  exact ⟨[], "1.50e+1".toList, [], rfl, nofun, .float _ _ ⟨false, ['1'], 1, some ['5', '0'], "e+1".toList, 1, rfl, .digit '1' 1 rfl,
    fun ds hd => by cases hd; exact ⟨nofun, by decide⟩, .inr ⟨'e', false, ['+'], ['1'], .inl rfl, by decide, ⟨nofun, by decide⟩, rfl, rfl⟩,
    .inl nofun, h⟩, nofun⟩

/-- texts that are not JSON -/
example : ∀ t ∈ ["[1,]", "{'a':1}", "01", "[1", "", "nul", "1 2", "\"\\x\"", "+1", "\"\t\"", "1.", ".5", "1e", "-NaN", "1e+", "00.5", "inf"], ¬ ∃ v, Spec.JsonText t.toList v := by
  have h : ∀ t ∈ ["[1,]", "{'a':1}", "01", "[1", "", "nul", "1 2", "\"\\x\"", "+1", "\"\t\"", "1.", ".5", "1e", "-NaN", "1e+", "00.5", "inf"], (loadsText t.toList).map dumpsJson = .error .jsonDecodeError := by
    decide +kernel
  rintro t ht ⟨v, hv⟩
  have := h t ht
  rw [(loadsText_iff _ _).mpr hv] at this
  cases this

/-- bytes that are not UTF-8, and a text that is not JSON -/
example : (loadsJson [0x22, 0xFF, 0x22]).map dumpsJson = .error .valueError ∧
    (loadsJson (encodeUtf8 "[1,]".toList)).map dumpsJson = .error .jsonDecodeError := by decide +kernel

/-- a chunk of three bytes, in an archive with metadata another program could have written: one chunk, a checksum of the metadata, two bytes of room -/
def foreignChunk : Bytes := [2, 1, 2, 1, 3, 0, 0, 0, 3, 0, 0, 0, 19, 0, 0, 0, 7, 8, 9]

example : unpackBytesFromBytes Toy.jsonEnv
    (Spec.headerBytes 3 false true "None" 1 3 3 1 0 ++
      (Spec.metaHeaderBytes [74, 83, 79, 78, 0, 0, 0, 0] "00000000".toList "adler32" "None" 0 (encodeUtf8 "[ 1 ]".toList).length
          ((encodeUtf8 "[ 1 ]".toList).length + [0, 0].length) (encodeUtf8 "[ 1 ]".toList).length [0, 0, 0, 0, 0, 0, 0, 0] ++
        (encodeUtf8 "[ 1 ]".toList ++ ([0, 0] ++ (Spec.digest Toy.jsonEnv "adler32" (encodeUtf8 "[ 1 ]".toList) ++ foreignChunk))))) =
    .ok ([7, 8, 9], some (.arr [.int 1])) := by
  refine C98_foreign Toy.env Toy.laws 1 3 3 1 "None" foreignChunk [7, 8, 9] (by simp [Spec.HeaderFieldsOK, Spec.checksumNames]) (.undigested _ _ (by decide +kernel)) "[ 1 ]".toList (.arr [.int 1]) ?_
    [0, 0] (by decide) "adler32" (by decide)
  exact ⟨[], "[ 1 ]".toList, [], rfl, nofun, .arr [' '] "1 ".toList _ (by simp [Spec.JsonSpace]) (.one ['1'] [' '] _ (.nat ['1'] 1 (.digit '1' 1 rfl))
    (by simp [Spec.JsonSpace])), nofun⟩

/-- what is written -/
example : Spec.JsonText (dumpsJson jsonExample) jsonExample := (C98_written jsonExample (by decide +kernel) (by decide +kernel)).1

end Bloscpack
