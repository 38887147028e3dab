import Verif.Lemmas.Headers
import Verif.Lemmas.ReadOnly
/-
Which exceptions the functions can raise.
-/
namespace Bloscpack
variable {μ : Type}

/-- whatever a computation raises satisfies `P` -/
def ERaises {α : Type} (P : Err → Prop) (x : Except Err α) : Prop := ∀ e, x = .error e → P e

namespace ERaises
variable {α β : Type} {P Q : Err → Prop}

theorem ok (a : α) : ERaises P (.ok a : Except Err α) := fun _ h => nomatch h
theorem error {e : Err} (h : P e) : ERaises P (.error e : Except Err α) := fun _ h' => by cases h'; exact h
theorem bind {x : Except Err α} {f : α → Except Err β} (hx : ERaises P x) (hf : ∀ a, x = .ok a → ERaises P (f a)) : ERaises P (x >>= f) := by
  cases x with
  | error e => exact fun e' h => hx e' (by cases h; rfl)
  | ok a => exact hf a rfl
theorem mono {x : Except Err α} (h : ERaises P x) (hPQ : ∀ e, P e → Q e) : ERaises Q x := fun e he => hPQ e (h e he)

theorem checkRange (v min max : Int) (h : P .valueError) : ERaises P (checkRange (.int v) min max) := by
  unfold Bloscpack.checkRange
  simp only
  split
  · exact ok _
  · exact error h

theorem checkStr (b : Bytes) (n : Nat) (h : P .valueError) : ERaises P (checkStr b n) := by
  unfold Bloscpack.checkStr
  split
  · exact error h
  · exact ok _

theorem checkOptions (o : List Char) (h : P .valueError) : ERaises P (checkOptions o) := by
  unfold Bloscpack.checkOptions
  split
  · exact error h
  · exact ok _

theorem byteAt (b : Bytes) (i : Nat) (h : P .indexError) : ERaises P (byteAt b i) := by
  unfold Bloscpack.byteAt
  split
  · exact ok _
  · exact error h

theorem nameAt (l : List String) (i : Nat) (h : P .indexError) : ERaises P (nameAt l i) := by
  unfold Bloscpack.nameAt
  split
  · exact ok _
  · exact error h

theorem decodeUInt32 (b : Bytes) (h : P .structError) : ERaises P (decodeUInt32 b) := by
  unfold Bloscpack.decodeUInt32 unpackUnsigned
  split
  · exact ok _
  · exact error h

theorem decodeInt32 (b : Bytes) (h : P .structError) : ERaises P (decodeInt32 b) := by
  unfold Bloscpack.decodeInt32 unpackSigned
  repeat' split
  all_goals first | exact ok _ | exact error h

theorem decodeInt64 (b : Bytes) (h : P .structError) : ERaises P (decodeInt64 b) := by
  unfold Bloscpack.decodeInt64 unpackSigned
  repeat' split
  all_goals first | exact ok _ | exact error h

theorem headerCheck {h : BloscpackHeader} (hc : h.checksum ∈ checksumsAvail) (hP : P .valueError) : ERaises P h.check := by
  unfold BloscpackHeader.check
  have hk : checkValidChecksum h.checksum = .ok () := if_pos hc
  refine bind (checkRange _ _ _ hP) fun _ _ => ?_
  rw [hk]
  refine bind (ok _) fun _ _ => ?_
  refine bind (checkRange _ _ _ hP) fun _ _ => ?_
  refine bind (checkRange _ _ _ hP) fun _ _ => ?_
  refine bind (checkRange _ _ _ hP) fun _ _ => ?_
  refine bind (checkRange _ _ _ hP) fun _ _ => ?_
  refine bind (checkRange _ _ _ hP) fun _ _ => ?_
  have hlast : ERaises P (if h.chunk_size ≠ -1 ∧ h.last_chunk ≠ -1 ∧ h.last_chunk > h.chunk_size then throw .valueError else pure () :
      Except Err Unit) := by
    split
    · exact error hP
    · exact ok _
  by_cases hn : h.nchunks ≠ -1
  · simp only [if_pos hn]
    exact bind (checkRange _ _ _ hP) fun _ _ => hlast
  · simp only [if_neg hn]
    by_cases hm : h.max_app_chunks ≠ 0
    · simp only [if_pos hm]
      exact error hP
    · simp only [if_neg hm]
      exact hlast

theorem metaHeaderNew {h : MetadataHeader} (h1 : h.meta_checksum ∈ checksumsAvail) (h2 : h.meta_codec ∈ codecsAvail) (hP : P .valueError) :
    ERaises P (MetadataHeader.new h) := by
  unfold MetadataHeader.new MetadataHeader.check
  have k1 : checkValidChecksum h.meta_checksum = .ok () := if_pos h1
  have k2 : checkValidCodec h.meta_codec = .ok () := if_pos h2
  refine bind ?_ fun _ _ => ok _
  rw [k1, k2]
  exact bind (checkStr _ _ hP) fun _ _ => bind (checkOptions _ hP) fun _ _ => bind (ok _) fun _ _ => bind (ok _) fun _ _ =>
    bind (checkRange _ _ _ hP) fun _ _ => bind (checkRange _ _ _ hP) fun _ _ => bind (checkRange _ _ _ hP) fun _ _ =>
    bind (checkRange _ _ _ hP) fun _ _ => checkStr _ _ hP

end ERaises

theorem ERaises.metaHeaderDecode {P : Err → Prop} (b : Bytes) (h1 : P .valueError) (h2 : P .indexError) (h3 : P .structError) :
    ERaises P (MetadataHeader.decode b) := by
  unfold MetadataHeader.decode
  split
  · exact error h1
  · exact bind (byteAt _ _ h2) fun _ _ => bind (byteAt _ _ h2) fun _ _ => bind (nameAt _ _ h2) fun _ k1 => bind (byteAt _ _ h2) fun _ _ =>
      bind (nameAt _ _ h2) fun _ k2 => bind (byteAt _ _ h2) fun _ _ => bind (decodeUInt32 _ h3) fun _ _ => bind (decodeUInt32 _ h3) fun _ _ =>
      bind (decodeUInt32 _ h3) fun _ _ => metaHeaderNew (nameAt_mem k1) (nameAt_mem k2) h1

theorem ERaises.bloscHeader {P : Err → Prop} (b : Bytes) (h2 : P .indexError) (h3 : P .structError) : ERaises P (decodeBloscHeader b) := by
  unfold decodeBloscHeader
  exact bind (byteAt _ _ h2) fun _ _ => bind (byteAt _ _ h2) fun _ _ => bind (byteAt _ _ h2) fun _ _ => bind (byteAt _ _ h2) fun _ _ =>
    bind (decodeUInt32 _ h3) fun _ _ => bind (decodeUInt32 _ h3) fun _ _ => bind (decodeUInt32 _ h3) fun _ _ => ok _

theorem ERaises.decodeOffsets {P : Err → Prop} (h3 : P .structError) : ∀ (n : Nat) (b : Bytes), ERaises P (decodeOffsets b n)
  | 0, _ => ok _
  | n + 1, _ => by
    unfold Bloscpack.decodeOffsets
    exact bind (decodeInt64 _ h3) fun _ _ => bind (decodeOffsets h3 n _) fun _ _ => ok _

theorem decodeOptions_error_table : ∀ n, n < 256 →
    ¬ UInt8.ofNat n < 4 → decodeOptions (decodeBitfield (UInt8.ofNat n)) = .error .valueError := by
  decide +kernel

theorem decodeOptions_ok_table : ∀ n, n < 256 → UInt8.ofNat n < 4 → (decodeOptions (decodeBitfield (UInt8.ofNat n))).isOk = true := by
  decide +kernel

/-- the exact exception for 32 bytes that are no header -/
theorem BloscpackHeader.decode_error (b : Bytes) (hb : ∀ h, BloscpackHeader.decode b ≠ .ok h) :
    BloscpackHeader.decode b = .error (if b.length = 32 ∧ slice b 0 4 = MAGIC ∧ (∃ o, b[5]? = some o ∧ o < 4) ∧
      (∃ c, b[6]? = some c ∧ 9 ≤ c) then .indexError else .valueError) := by
  by_cases hlen : b.length = 32
  rotate_left
  · rw [if_neg (fun h => hlen h.1)]
    unfold BloscpackHeader.decode
    rw [if_pos (by simpa [BLOSCPACK_HEADER_LENGTH] using hlen)]
    rfl
  by_cases hmag : slice b 0 4 = MAGIC
  rotate_left
  · rw [if_neg (fun h => hmag h.2.1)]
    unfold BloscpackHeader.decode
    rw [if_neg (by simp [BLOSCPACK_HEADER_LENGTH, hlen]), if_pos hmag]
    rfl
  have hget : ∀ i, i < 32 → ∃ x, b[i]? = some x ∧ byteAt b i = .ok x := by
    intro i hi
    refine ⟨b[i]'(by omega), List.getElem?_eq_getElem (by omega), ?_⟩
    unfold byteAt
    rw [List.getElem?_eq_getElem (by omega)]
  obtain ⟨x4, g4, h4⟩ := hget 4 (by omega)
  obtain ⟨x5, g5, h5⟩ := hget 5 (by omega)
  obtain ⟨x6, g6, h6⟩ := hget 6 (by omega)
  obtain ⟨x7, g7, h7⟩ := hget 7 (by omega)
  have key : BloscpackHeader.decode b = (decodeOptions (decodeBitfield x5) >>= fun om => do
      let c ← nameAt checksumsAvail x6.toNat
      let cs ← decodeInt32 (slice b 8 12)
      let lc ← decodeInt32 (slice b 12 16)
      let nc ← decodeInt64 (slice b 16 24)
      let ma ← decodeInt64 (slice b 24 32)
      BloscpackHeader.new ⟨decodeUInt8 x4, om.1, om.2, c, decodeUInt8 x7, cs, lc, nc, ma⟩) := by
    unfold BloscpackHeader.decode
    rw [if_neg (by simp [BLOSCPACK_HEADER_LENGTH, hlen]), if_neg (by simp [hmag]), h4, h5, h6, h7]
    rfl
  by_cases ho : x5 < 4
  rotate_left
  · rw [if_neg (by rintro ⟨-, -, ⟨o, h1, h2⟩, -⟩; rw [g5] at h1; cases h1; exact ho h2), key,
      forall_uint8 (P := fun x => ¬ x < 4 → decodeOptions (decodeBitfield x) = .error .valueError) decodeOptions_error_table x5 ho]
    rfl
  have hok := forall_uint8 (P := fun x => x < 4 → (decodeOptions (decodeBitfield x)).isOk = true) decodeOptions_ok_table x5 ho
  cases hd : decodeOptions (decodeBitfield x5) with
  | error e => rw [hd] at hok; cases hok
  | ok om =>
    rw [key, hd]
    show (do
      let c ← nameAt checksumsAvail x6.toNat
      let cs ← decodeInt32 (slice b 8 12)
      let lc ← decodeInt32 (slice b 12 16)
      let nc ← decodeInt64 (slice b 16 24)
      let ma ← decodeInt64 (slice b 24 32)
      BloscpackHeader.new ⟨decodeUInt8 x4, om.1, om.2, c, decodeUInt8 x7, cs, lc, nc, ma⟩) = _
    rw [key, hd] at hb
    replace hb : ∀ h, (do
      let c ← nameAt checksumsAvail x6.toNat
      let cs ← decodeInt32 (slice b 8 12)
      let lc ← decodeInt32 (slice b 12 16)
      let nc ← decodeInt64 (slice b 16 24)
      let ma ← decodeInt64 (slice b 24 32)
      BloscpackHeader.new ⟨decodeUInt8 x4, om.1, om.2, c, decodeUInt8 x7, cs, lc, nc, ma⟩ : Except Err BloscpackHeader) ≠ .ok h := hb
    by_cases hc : 9 ≤ x6
    · rw [if_pos ⟨hlen, hmag, ⟨x5, g5, ho⟩, ⟨x6, g6, hc⟩⟩]
      have hn : nameAt checksumsAvail x6.toNat = .error .indexError := by
        unfold nameAt
        have : checksumsAvail.length ≤ x6.toNat := by
          have := UInt8.le_iff_toNat_le.1 hc
          exact this
        rw [List.getElem?_eq_none this]
      rw [hn]
      rfl
    · rw [if_neg (by rintro ⟨-, -, -, ⟨c, h1, h2⟩⟩; rw [g6] at h1; cases h1; exact hc h2)]
      have h32 : ∀ i, i + 4 ≤ 32 → ∃ v, decodeInt32 (slice b i (i + 4)) = .ok v := by
        intro i hi
        unfold decodeInt32 unpackSigned
        rw [if_pos (by simp [slice]; omega)]
        exact ⟨_, rfl⟩
      have h64 : ∀ i, i + 8 ≤ 32 → ∃ v, decodeInt64 (slice b i (i + 8)) = .ok v := by
        intro i hi
        unfold decodeInt64 unpackSigned
        rw [if_pos (by simp [slice]; omega)]
        exact ⟨_, rfl⟩
      obtain ⟨cs, e1⟩ := h32 8 (by omega)
      obtain ⟨lc, e2⟩ := h32 12 (by omega)
      obtain ⟨nc, e3⟩ := h64 16 (by omega)
      obtain ⟨ma, e4⟩ := h64 24 (by omega)
      have hn : ∃ c, nameAt checksumsAvail x6.toNat = .ok c := by
        unfold nameAt
        have : x6.toNat < checksumsAvail.length := by
          have := UInt8.not_le.1 hc
          exact UInt8.lt_iff_toNat_lt.1 this
        rw [List.getElem?_eq_getElem this]
        exact ⟨_, rfl⟩
      obtain ⟨c, hn⟩ := hn
      rw [hn, e1, e2, e3, e4] at hb ⊢
      have hr : ERaises (· = Err.valueError) (BloscpackHeader.new ⟨decodeUInt8 x4, om.1, om.2, c, decodeUInt8 x7, cs, lc, nc, ma⟩) := by
        unfold BloscpackHeader.new
        exact ERaises.bind (ERaises.headerCheck (nameAt_mem hn) rfl) fun _ _ => ERaises.ok _
      show BloscpackHeader.new ⟨decodeUInt8 x4, om.1, om.2, c, decodeUInt8 x7, cs, lc, nc, ma⟩ = _
      replace hb : ∀ h, BloscpackHeader.new ⟨decodeUInt8 x4, om.1, om.2, c, decodeUInt8 x7, cs, lc, nc, ma⟩ ≠ .ok h := hb
      cases hx : BloscpackHeader.new ⟨decodeUInt8 x4, om.1, om.2, c, decodeUInt8 x7, cs, lc, nc, ma⟩ with
      | ok h => exact absurd hx (hb h)
      | error e => rw [hr e hx]

theorem ERaises.headerDecode {P : Err → Prop} (b : Bytes) (h1 : P .valueError) (h2 : P .indexError) : ERaises P (BloscpackHeader.decode b) := by
  intro e he
  have := BloscpackHeader.decode_error b (fun h hx => by rw [he] at hx; cases hx)
  rw [he] at this
  injection this with this
  rw [this]
  split
  · exact h2
  · exact h1

end Bloscpack
