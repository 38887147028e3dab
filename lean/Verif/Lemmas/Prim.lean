import Verif.Model.Prim
/-
Lemmas about byte strings, `struct` packing, file objects and procedures.
-/
namespace Bloscpack

/-! ### little-endian numbers -/

@[simp] theorem leEncode_length (w v : Nat) : (leEncode w v).length = w := by
  induction w generalizing v with
  | zero => rfl
  | succ n ih => simp [leEncode, ih]

theorem leDecode_lt (b : Bytes) : leDecode b < 256 ^ b.length := by
  induction b with
  | nil => simp [leDecode]
  | cons x xs ih =>
    have := x.toNat_lt
    simp only [leDecode, List.length_cons, Nat.pow_succ]
    omega

theorem leDecode_leEncode (w v : Nat) (h : v < 256 ^ w) : leDecode (leEncode w v) = v := by
  induction w generalizing v with
  | zero => simp at h; simp [leEncode, leDecode, h]
  | succ n ih =>
    have h1 : v / 256 < 256 ^ n := by
      rw [Nat.div_lt_iff_lt_mul (by decide)]; rwa [Nat.pow_succ] at h
    simp only [leEncode, leDecode, ih _ h1]
    rw [UInt8.toNat_ofNat_of_lt' (by simp only [UInt8.size]; omega)]
    omega

theorem leEncode_leDecode (b : Bytes) : leEncode b.length (leDecode b) = b := by
  induction b with
  | nil => rfl
  | cons x xs ih =>
    have hx := x.toNat_lt
    simp only [List.length_cons, leEncode, leDecode]
    have h1 : (x.toNat + 256 * leDecode xs) % 256 = x.toNat := by omega
    have h2 : (x.toNat + 256 * leDecode xs) / 256 = leDecode xs := by omega
    rw [h1, h2, ih]; simp

theorem leDecode_inj {a b : Bytes} (h : a.length = b.length) (h2 : leDecode a = leDecode b) : a = b := by
  rw [← leEncode_leDecode a, ← leEncode_leDecode b, h, h2]

theorem natCast_pow256 (w : Nat) : ((256 ^ w : Nat) : Int) = 256 ^ w := by
  rw [Int.natCast_pow]; rfl

theorem toNat_lt_pow {v : Int} {w : Nat} (h1 : v < 256 ^ w) : v.toNat < 256 ^ w := by
  have hp : 0 < 256 ^ w := Nat.pow_pos (by decide)
  rw [← natCast_pow256] at h1
  generalize 256 ^ w = p at h1 hp
  omega

theorem leDecode_lt_int {b : Bytes} {w : Nat} (h : b.length = w) : (leDecode b : Int) < 256 ^ w := by
  have := leDecode_lt b
  rw [← natCast_pow256, ← h]
  generalize 256 ^ b.length = p at this
  omega

/-! ### struct -/

theorem packUnsigned_ok {w : Nat} {v : Int} {b : Bytes} (h : packUnsigned w v = .ok b) :
    0 ≤ v ∧ v < 256 ^ w ∧ b = leEncode w v.toNat := by
  unfold packUnsigned at h
  split at h
  · rename_i hc; exact ⟨hc.1, hc.2, by cases h; rfl⟩
  · cases h

theorem packUnsigned_of {w : Nat} {v : Int} (h0 : 0 ≤ v) (h1 : v < 256 ^ w) :
    packUnsigned w v = .ok (leEncode w v.toNat) := by
  unfold packUnsigned; rw [if_pos ⟨h0, h1⟩]

theorem packSigned_ok {w : Nat} {v : Int} {b : Bytes} (h : packSigned w v = .ok b) :
    -(256 ^ w / 2) ≤ v ∧ v < 256 ^ w / 2 ∧ b = leEncode w (v % 256 ^ w).toNat := by
  unfold packSigned at h
  split at h
  · rename_i hc; exact ⟨hc.1, hc.2, by cases h; rfl⟩
  · cases h

theorem packSigned_of {w : Nat} {v : Int} (h0 : -(256 ^ w / 2) ≤ v) (h1 : v < 256 ^ w / 2) :
    packSigned w v = .ok (leEncode w (v % 256 ^ w).toNat) := by
  unfold packSigned; rw [if_pos ⟨h0, h1⟩]

theorem packUnsigned_length {w : Nat} {v : Int} {b : Bytes} (h : packUnsigned w v = .ok b) : b.length = w := by
  obtain ⟨_, _, rfl⟩ := packUnsigned_ok h; simp

theorem packSigned_length {w : Nat} {v : Int} {b : Bytes} (h : packSigned w v = .ok b) : b.length = w := by
  obtain ⟨_, _, rfl⟩ := packSigned_ok h; simp

theorem unpackUnsigned_pack {w : Nat} {v : Int} {b : Bytes} (h : packUnsigned w v = .ok b) :
    unpackUnsigned w b = .ok v := by
  obtain ⟨h0, h1, rfl⟩ := packUnsigned_ok h
  have := toNat_lt_pow h1
  simp [unpackUnsigned, leDecode_leEncode _ _ this, Int.toNat_of_nonneg h0]

theorem even_pow {w : Nat} (hw : 0 < w) : (256 : Int) ^ w = 2 * (256 ^ w / 2) := by
  obtain ⟨n, rfl⟩ : ∃ n, w = n + 1 := ⟨w - 1, by omega⟩
  rw [Int.pow_succ]; omega

theorem pow_pos' (w : Nat) : (0 : Int) < 256 ^ w := Int.pow_pos (by decide)

theorem unpackSigned_pack {w : Nat} {v : Int} {b : Bytes} (hw : 0 < w) (h : packSigned w v = .ok b) :
    unpackSigned w b = .ok v := by
  obtain ⟨h0, h1, rfl⟩ := packSigned_ok h
  have he := even_pow hw
  have hp := pow_pos' w
  have hm0 : 0 ≤ v % 256 ^ w := Int.emod_nonneg _ (by omega)
  have hm1 : v % 256 ^ w < 256 ^ w := Int.emod_lt_of_pos _ hp
  have := toNat_lt_pow hm1
  simp only [unpackSigned, leEncode_length, if_true, leDecode_leEncode _ _ this, Int.toNat_of_nonneg hm0]
  congr 1
  by_cases hv : 0 ≤ v
  · have : v % 256 ^ w = v := Int.emod_eq_of_lt hv (by omega)
    rw [this]; split <;> omega
  · have : v % 256 ^ w = v + 256 ^ w := by
      rw [← Int.add_emod_right]; exact Int.emod_eq_of_lt (by omega) (by omega)
    rw [this]; split <;> omega

theorem packUnsigned_unpack {w : Nat} {v : Int} {b : Bytes} (h : unpackUnsigned w b = .ok v) :
    packUnsigned w v = .ok b := by
  unfold unpackUnsigned at h
  split at h
  · rename_i hl
    cases h
    subst hl
    rw [packUnsigned_of (by omega) (leDecode_lt_int rfl)]
    simp [leEncode_leDecode]
  · cases h

theorem packSigned_unpack {w : Nat} {v : Int} {b : Bytes} (hw : 0 < w) (h : unpackSigned w b = .ok v) :
    packSigned w v = .ok b := by
  unfold unpackSigned at h
  split at h
  · rename_i hl
    have he := even_pow hw
    have hp := pow_pos' w
    have hlt' := leDecode_lt_int hl
    simp only at h
    cases h
    have key : ∀ u : Int, -(256 ^ w / 2) ≤ u → u < 256 ^ w / 2 → u % 256 ^ w = leDecode b →
        packSigned w u = .ok b := by
      intro u h1 h2 h3
      rw [packSigned_of h1 h2, h3]
      simp only [Int.toNat_natCast]
      rw [← hl, leEncode_leDecode]
    split
    · exact key _ (by omega) (by omega) (Int.emod_eq_of_lt (by omega) hlt')
    · refine key _ (by omega) (by omega) ?_
      rw [Int.sub_emod_right]
      exact Int.emod_eq_of_lt (by omega) hlt'
  · cases h

/-! ### slices -/

theorem slice_append_right {α} (a b : List α) (i j : Nat) (h : a.length ≤ i) :
    slice (a ++ b) i j = slice b (i - a.length) (j - a.length) := by
  unfold slice
  rw [List.drop_append, List.drop_of_length_le h]
  simp only [List.nil_append]
  congr 1
  omega

theorem slice_append_left {α} (a b : List α) (i j : Nat) (h : j ≤ a.length) :
    slice (a ++ b) i j = slice a i j := by
  unfold slice
  by_cases hi : i ≤ j
  · rw [List.drop_append_of_le_length (by omega), List.take_append_of_le_length (by simp; omega)]
  · have : j - i = 0 := by omega
    simp [this]

theorem slice_all {α} (a : List α) (j : Nat) (h : a.length ≤ j) : slice a 0 j = a := by
  simp [slice, List.take_of_length_le h]

theorem slice_length {α} (a : List α) (i j : Nat) (h : j ≤ a.length) : (slice a i j).length = j - i := by
  simp [slice]; omega

theorem slice_cat {α} (a : List α) (i j k : Nat) (h1 : i ≤ j) (h2 : j ≤ k) :
    slice a i j ++ slice a j k = slice a i k := by
  unfold slice
  have : List.drop j a = List.drop (j - i) (List.drop i a) := by rw [List.drop_drop]; congr 1; omega
  rw [this]
  have e : k - i = (j - i) + (k - j) := by omega
  rw [e, List.take_add]

theorem take_eq_slice {α} (a : List α) (j : Nat) : a.take j = slice a 0 j := by simp [slice]

/-! ### file objects -/

/-- The file object whose contents are `A ++ R`, positioned between `A` and `R`. -/
def Z (A R : Bytes) (l : List (Nat × Bytes) := []) (m : Bool := false) : FP :=
  { data := A ++ R, pos := A.length, log := l, inMemory := m }

theorem Z_of (fp : FP) (h : fp.pos ≤ fp.data.length) :
    fp = Z (fp.data.take fp.pos) (fp.data.drop fp.pos) fp.log fp.inMemory := by
  cases fp; simp at h; simp [Z]; omega

@[simp] theorem Z_data (A R l m) : (Z A R l m).data = A ++ R := rfl
@[simp] theorem Z_pos (A R l m) : (Z A R l m).pos = A.length := rfl
@[simp] theorem Z_log (A R l m) : (Z A R l m).log = l := rfl
@[simp] theorem Z_inMemory (A R l m) : (Z A R l m).inMemory = m := rfl

theorem overlay_append (A R bs : Bytes) : overlay (A ++ R) A.length bs = A ++ bs ++ R.drop bs.length := by
  unfold overlay
  split
  · simp_all
  · have : A.length - (A ++ R).length = 0 := by simp
    rw [this]
    simp [List.drop_append]

theorem fpWrite_Z (A R l bs) (m : Bool := false) :
    fpWrite bs (Z A R l m) = (.ok (), Z (A ++ bs) (R.drop bs.length) (l ++ [(A.length, bs)]) m) := by
  simp [fpWrite_eq, FP.write, Z, overlay_append]

theorem fpRead_Z (A R : Bytes) (l) (n : Nat) (m : Bool := false) :
    fpRead n (Z A R l m) = (.ok (R.take n), Z (A ++ R.take n) (R.drop n) l m) := by
  have : ¬ ((n : Int) < 0) := by omega
  simp [fpRead_eq, FP.read, Z, this]

theorem fpRead_neg_Z (A R : Bytes) (l) (n : Int) (h : n < 0) (m : Bool := false) :
    fpRead n (Z A R l m) = (.ok R, Z (A ++ R) [] l m) := by
  simp [fpRead_eq, FP.read, Z, h]

theorem fpRead_exact (A X R : Bytes) (l) (n : Int) (h : n = X.length) (m : Bool := false) :
    fpRead n (Z A (X ++ R) l m) = (.ok X, Z (A ++ X) R l m) := by
  subst h; rw [fpRead_Z (m := m)]; simp

theorem fpSeek_Z (A R P Q : Bytes) (l) (k : Int) (h : A ++ R = P ++ Q) (hk : k = P.length) (m : Bool := false) :
    fpSeek k (Z A R l m) = (.ok (), Z P Q l m) := by
  subst hk
  have : ¬ ((P.length : Int) < 0) := by omega
  simp [fpSeek_eq, FP.seek, Z, this, h]

theorem fpSeekRel_Z (A R P Q : Bytes) (l) (k : Int) (h : A ++ R = P ++ Q) (hk : A.length + k = P.length) (m : Bool := false) :
    fpSeekRel k (Z A R l m) = (.ok (), Z P Q l m) := by
  have h1 : ¬ ((A.length : Int) + k < 0) := by omega
  have h2 : ((A.length : Int) + k).toNat = P.length := by omega
  simp [fpSeekRel_eq, FP.seekRel, Z, h1, h2, h]

theorem fpTell_Z (A R : Bytes) (l) (m : Bool := false) : fpTell (Z A R l m) = (.ok A.length, Z A R l m) := rfl

/-! ### procedures -/
section
variable {σ τ α β : Type}

@[simp] theorem Proc.bind_apply (m : Proc σ α) (f : α → Proc σ β) (s : σ) :
    (m >>= f) s = match m s with
      | (.ok a, s') => f a s'
      | (.error e, s') => (.error e, s') := rfl

@[simp] theorem Proc.pure_apply (a : α) (s : σ) : (Proc.pure a : Proc σ α) s = (.ok a, s) := rfl
@[simp] theorem Proc.pure_apply' (a : α) (s : σ) : (Pure.pure a : Proc σ α) s = (.ok a, s) := rfl
@[simp] theorem Proc.raise_apply (e : Err) (s : σ) : (Proc.raise e : Proc σ α) s = (.error e, s) := rfl
@[simp] theorem Proc.ofExcept_apply (x : Except Err α) (s : σ) : (Proc.ofExcept x : Proc σ α) s = (x, s) := rfl
@[simp] theorem Proc.get_apply (s : σ) : (Proc.get : Proc σ σ) s = (.ok s, s) := rfl
@[simp] theorem Proc.modify_apply (f : σ → σ) (s : σ) : (Proc.modify f) s = (.ok (), f s) := rfl
@[simp] theorem Proc.raiseIf_pos {bad : Prop} [Decidable bad] (h : bad) (e : Err) (s : σ) :
    (Proc.raiseIf bad e) s = (.error e, s) := by simp [Proc.raiseIf, h]
@[simp] theorem Proc.raiseIf_neg {bad : Prop} [Decidable bad] (h : ¬ bad) (e : Err) (s : σ) :
    (Proc.raiseIf bad e) s = (.ok (), s) := by simp [Proc.raiseIf, h]
theorem Proc.onFst_apply (m : Proc σ α) (s : σ) (t : τ) :
    (Proc.onFst m : Proc (σ × τ) α) (s, t) = ((m s).1, ((m s).2, t)) := rfl
theorem Proc.onSnd_apply (m : Proc σ α) (s : σ) (t : τ) :
    (Proc.onSnd m : Proc (τ × σ) α) (t, s) = ((m s).1, (t, (m s).2)) := rfl

theorem Proc.bind_of_ok {m : Proc σ α} {f : α → Proc σ β} {s s' : σ} {a : α} (h : m s = (.ok a, s')) :
    (m >>= f) s = f a s' := by simp [h]
theorem Proc.bind_of_error {m : Proc σ α} {f : α → Proc σ β} {s s' : σ} {e : Err} (h : m s = (.error e, s')) :
    (m >>= f) s = (.error e, s') := by simp [h]
/-- a sequence succeeds iff both parts do -/
theorem Proc.bind_ok_iff {m : Proc σ α} {f : α → Proc σ β} {s s'' : σ} {b : β} :
    (m >>= f) s = (.ok b, s'') ↔ ∃ a s', m s = (.ok a, s') ∧ f a s' = (.ok b, s'') := by
  simp only [Proc.bind_apply]
  rcases m s with ⟨r, s'⟩
  cases r with
  | ok a =>
    constructor
    · intro h; exact ⟨a, s', rfl, h⟩
    · rintro ⟨a', s1, h1, h2⟩; cases h1; exact h2
  | error e => simp
end

/-! ### Except -/

theorem Except.bind_ok_iff {α β : Type} {x : Except Err α} {f : α → Except Err β} {b : β} :
    (x >>= f) = .ok b ↔ ∃ a, x = .ok a ∧ f a = .ok b := by
  cases x <;> simp [bind, Except.bind]

@[simp] theorem Except.ok_bind' {α β : Type} (a : α) (f : α → Except Err β) :
    ((Except.ok a : Except Err α) >>= f) = f a := rfl
@[simp] theorem Except.error_bind' {α β : Type} (e : Err) (f : α → Except Err β) :
    ((Except.error e : Except Err α) >>= f) = .error e := rfl
@[simp] theorem Except.pure_eq {α : Type} (a : α) : (pure a : Except Err α) = .ok a := rfl
@[simp] theorem Except.throw_eq {α : Type} (e : Err) : (throw e : Except Err α) = .error e := rfl

end Bloscpack
