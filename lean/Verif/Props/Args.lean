import Verif.Spec.Args
import Verif.Lemmas.Headers
/-
C02, C03: chunking. C32: max_app_chunks. C33: argument dictionaries.
-/
namespace Bloscpack

theorem calculateNchunks_int {n v : Int} (hn : 0 < n) (hv1 : 1 ≤ v) (hv2 : v ≤ BLOSC_MAX_BUFFERSIZE) :
    calculateNchunks n (.int v) =
      if v ≥ n then .ok (1, n, n)
      else if (if n % v = 0 then n / v else n / v + 1) > MAX_CHUNKS then .error .chunkingException
      else if n % v = 0 then .ok (n / v, v, v) else .ok (n / v + 1, v, n % v) := by
  have h0 : ¬ n < 0 := by omega
  have h1 : ¬ n = 0 := by omega
  simp only [calculateNchunks, if_neg h0, if_neg h1, ChunkSizeArg.value, Except.ok_bind', checkRange,
    if_pos (And.intro hv1 hv2)]
  by_cases hvn : v ≥ n
  · have : (if v > n then n else v) = n := by split <;> omega
    rw [if_pos hvn, this]
    have : ¬ (1 : Int) > MAX_CHUNKS := by rw [MAX_CHUNKS_eq]; decide
    simp [this]
  · rw [if_neg (by omega : ¬ v > n), if_neg hvn, if_neg (by omega : ¬ v = n)]
    by_cases hm : n % v = 0 <;> simp [hm]

theorem requested_reduce {n : Int} {c : ChunkSizeArg} {v : Int} (h : Spec.RequestedSize c v) :
    calculateNchunks n c = calculateNchunks n (.int v) := by
  rcases h with rfl | ⟨s, rfl, hs⟩
  · rfl
  · simp [calculateNchunks, ChunkSizeArg.value, hs, Except.map]

theorem calculateNchunks_range {n v : Int} (hn : 0 < n) (hv : ¬ (1 ≤ v ∧ v ≤ BLOSC_MAX_BUFFERSIZE)) :
    calculateNchunks n (.int v) = .error .valueError := by
  have h0 : ¬ n < 0 := by omega
  have h1 : ¬ n = 0 := by omega
  simp [calculateNchunks, h0, h1, ChunkSizeArg.value, checkRange, hv]

theorem calculateNchunks_requested {n : Int} {c : ChunkSizeArg} {r} (hn : 0 < n) (h : calculateNchunks n c = .ok r) :
    ∃ v, Spec.RequestedSize c v ∧ 1 ≤ v ∧ v ≤ BLOSC_MAX_BUFFERSIZE := by
  have h0 : ¬ n < 0 := by omega
  have h1 : ¬ n = 0 := by omega
  rcases c with v | s | _
  · refine ⟨v, .inl rfl, ?_⟩
    apply Classical.byContradiction; intro hc; rw [calculateNchunks_range hn hc] at h; cases h
  · cases hs : reversePretty s with
    | error e => simp [calculateNchunks, h0, h1, ChunkSizeArg.value, hs, Except.map] at h
    | ok v =>
      have hr : Spec.RequestedSize (.str s) v := .inr ⟨s, rfl, hs⟩
      refine ⟨v, hr, ?_⟩
      rw [requested_reduce hr] at h
      apply Classical.byContradiction; intro hc; rw [calculateNchunks_range hn hc] at h; cases h
  · simp [calculateNchunks, h0, h1, ChunkSizeArg.value, checkRange] at h

/-- C02: the chunks computed for an input cover it exactly, are non-empty, at most as long as requested, and as few
as possible; their number fits the header field. -/
theorem C02_chunking_covers (n : Int) (c : ChunkSizeArg) (k c' l : Int)
    (h : calculateNchunks n c = .ok (k, c', l)) :
    c' * (k - 1) + l = n ∧ 1 ≤ k ∧ k ≤ 2 ^ 63 - 1 ∧ l ≤ c' ∧ c' ≤ n ∧
    (n = 0 → k = 1 ∧ c' = 0 ∧ l = 0) ∧
    (n ≠ 0 → 1 ≤ l ∧ ∃ v, Spec.RequestedSize c v ∧ c' ≤ v ∧ (v ≤ n → c' = v) ∧
      ∀ j : Int, n ≤ j * v → k ≤ j) := by
  by_cases hneg : n < 0
  · simp [calculateNchunks, hneg] at h
  by_cases hz : n = 0
  · subst hz
    simp [calculateNchunks] at h
    obtain ⟨rfl, rfl, rfl⟩ := h
    simp
  have hn : 0 < n := by omega
  obtain ⟨v, hr, hv1, hv2⟩ := calculateNchunks_requested hn h
  rw [requested_reduce hr, calculateNchunks_int hn hv1 hv2] at h
  have hd := Int.mul_ediv_add_emod n v
  have hm0 := Int.emod_nonneg n (by omega : v ≠ 0)
  have hm1 := Int.emod_lt_of_pos n (by omega : 0 < v)
  have hmin : ∀ q j : Int, n ≤ j * v → v * q < n → q + 1 ≤ j := by
    intro q j h1 h2
    apply Classical.byContradiction
    intro hc
    have : j * v ≤ q * v := Int.mul_le_mul_of_nonneg_right (by omega) (by omega)
    rw [Int.mul_comm q v] at this
    omega
  split at h
  · cases h
    refine ⟨by omega, by omega, by omega, by omega, by omega, by omega, fun _ => ⟨by omega, v, hr, by omega, by omega, ?_⟩⟩
    intro j hj
    exact hmin 0 j hj (by omega)
  · have hM := MAX_CHUNKS_eq
    by_cases hmax : (if n % v = 0 then n / v else n / v + 1) > MAX_CHUNKS
    · rw [if_pos hmax] at h; cases h
    · rw [if_neg hmax] at h
      by_cases hm : n % v = 0
      · rw [if_pos hm] at hmax h
        simp only [Except.ok.injEq, Prod.mk.injEq] at h
        obtain ⟨rfl, rfl, rfl⟩ := h
        have hq : v * (n / v - 1) + v = n := by rw [Int.mul_sub]; omega
        have hq1 : 1 ≤ n / v := by
          apply Classical.byContradiction; intro hc
          have : v * (n / v) ≤ v * 0 := Int.mul_le_mul_of_nonneg_left (by omega) (by omega)
          omega
        refine ⟨by omega, hq1, by omega, by omega, by omega, by omega,
          fun _ => ⟨by omega, v, hr, by omega, by omega, ?_⟩⟩
        intro j hj
        have := hmin (n / v - 1) j hj (by omega)
        omega
      · rw [if_neg hm] at hmax h
        simp only [Except.ok.injEq, Prod.mk.injEq] at h
        obtain ⟨rfl, rfl, rfl⟩ := h
        have hq1 : 0 ≤ n / v := Int.ediv_nonneg (by omega) (by omega)
        have hq : v * (n / v + 1 - 1) = v * (n / v) := by congr 1; omega
        refine ⟨by omega, by omega, by omega, by omega, by omega, by omega,
          fun _ => ⟨by omega, v, hr, by omega, by omega, ?_⟩⟩
        intro j hj
        exact hmin (n / v) j hj (by omega)

/-- the chunk size recorded for an input is at most its length -/
theorem calculateNchunks_le {n : Int} {c : ChunkSizeArg} {k c' l : Int} (h : calculateNchunks n c = .ok (k, c', l)) :
    c' ≤ n := (C02_chunking_covers n c k c' l h).2.2.2.2.1

-- 10 bytes in chunks of 4: three chunks, the last of length 2; the string form of the request works the same
example : calculateNchunks 10 (.int 4) = .ok (3, 4, 2) := by decide
example : calculateNchunks 5000 (.str ['2', 'K']) = .ok (3, 2048, 904) := by decide +kernel

/-- C03: exactly which inputs are rejected, and how. -/
theorem C03_chunking_rejected (n : Int) (c : ChunkSizeArg) :
    (n < 0 → calculateNchunks n c = .error .valueError) ∧
    (n = 0 → calculateNchunks n c = .ok (1, 0, 0)) ∧
    (0 < n → c = .other → calculateNchunks n c = .error .typeError) ∧
    (0 < n → ∀ s e, c = .str s → reversePretty s = .error e → calculateNchunks n c = .error e) ∧
    (0 < n → ∀ v, Spec.RequestedSize c v →
      (¬ (1 ≤ v ∧ v ≤ BLOSC_MAX_BUFFERSIZE) → calculateNchunks n c = .error .valueError) ∧
      (1 ≤ v ∧ v ≤ BLOSC_MAX_BUFFERSIZE →
        (v * (2 ^ 63 - 1) < n → calculateNchunks n c = .error .chunkingException) ∧
        (n ≤ v * (2 ^ 63 - 1) → ∃ r, calculateNchunks n c = .ok r))) := by
  refine ⟨?_, ?_, ?_, ?_, ?_⟩
  · intro h; simp [calculateNchunks, h]
  · rintro rfl; simp [calculateNchunks]
  · rintro h rfl
    have h0 : ¬ n < 0 := by omega
    have h1 : ¬ n = 0 := by omega
    simp [calculateNchunks, h0, h1, ChunkSizeArg.value, checkRange]
  · rintro h s e rfl hs
    have h0 : ¬ n < 0 := by omega
    have h1 : ¬ n = 0 := by omega
    simp [calculateNchunks, h0, h1, ChunkSizeArg.value, hs, Except.map]
  · intro hn v hr
    rw [requested_reduce hr]
    refine ⟨calculateNchunks_range hn, ?_⟩
    rintro ⟨hv1, hv2⟩
    rw [calculateNchunks_int hn hv1 hv2]
    have hd := Int.mul_ediv_add_emod n v
    have hm0 := Int.emod_nonneg n (by omega : v ≠ 0)
    have hm1 := Int.emod_lt_of_pos n (by omega : 0 < v)
    constructor
    · intro hlt
      have hge : ¬ v ≥ n := by omega
      rw [if_neg hge, if_pos]
      have hmul : ∀ q : Int, q ≤ 2 ^ 63 - 1 → v * q ≤ v * (2 ^ 63 - 1) :=
        fun q hq => Int.mul_le_mul_of_nonneg_left hq (by omega)
      have hM := MAX_CHUNKS_eq
      apply Classical.byContradiction
      intro hc
      split at hc
      · have := hmul (n / v) (by omega)
        omega
      · have := hmul (n / v + 1) (by omega)
        rw [Int.mul_add] at this
        omega
    · intro hle
      by_cases hge : v ≥ n
      · rw [if_pos hge]; exact ⟨_, rfl⟩
      · rw [if_neg hge, if_neg]
        · split <;> exact ⟨_, rfl⟩
        · intro hc
          have hM := MAX_CHUNKS_eq
          have hmul : ∀ q : Int, 2 ^ 63 - 1 + 1 ≤ q → v * (2 ^ 63 - 1 + 1) ≤ v * q :=
            fun q hq => Int.mul_le_mul_of_nonneg_left hq (by omega)
          split at hc
          · have := hmul (n / v) (by omega)
            rw [Int.mul_add] at this
            omega
          · have hq : 2 ^ 63 - 1 ≤ n / v := by omega
            have : v * (2 ^ 63 - 1) ≤ v * (n / v) := Int.mul_le_mul_of_nonneg_left hq (by omega)
            omega

-- each kind of rejection occurs
example : calculateNchunks (-1) (.int 4) = .error .valueError ∧ calculateNchunks 10 (.int 0) = .error .valueError ∧
    calculateNchunks (2 ^ 63) (.int 1) = .error .chunkingException ∧
    calculateNchunks 10 .other = .error .typeError ∧
    calculateNchunks 10 (.str ['1', 'x']) = .error .valueError := by decide

/-! ### C32 -/

/-- C32: a successful normalisation gives the requested number, cut down to what fits. -/
theorem C32_exact (offsets : Bool) (n : Int) (m : MaxAppArg) (v : Int) (hn0 : 0 ≤ n) (hn1 : n ≤ 2 ^ 63 - 1)
    (ho : offsets = true) (hr : Spec.RequestedApps m n v) (hv : 0 ≤ v) (hvi : ∀ i, m = .int i → v ≤ 2 ^ 63 - 1) :
    handleMaxApps offsets n m = .ok (min v (2 ^ 63 - 1 - n)) := by
  have hne : n ≠ -1 := by omega
  have hrange : checkRange (.int n) (-1) MAX_CHUNKS = .ok () :=
    checkRange_ok (by omega) (by rw [MAX_CHUNKS_eq]; omega)
  have heval : m.eval n = .ok v := by
    rcases hr with rfl | ⟨f, rfl, hf⟩
    · have := hvi v rfl
      simp only [MaxAppArg.eval]; rw [checkRange_ok (by omega) (by rw [MAX_CHUNKS_eq]; omega)]; rfl
    · simp only [MaxAppArg.eval, hf]; rw [if_neg (by omega)]
  simp only [handleMaxApps, hrange, Except.ok_bind', if_pos (And.intro ho hne), heval]
  have hM := MAX_CHUNKS_eq
  rw [← hM] at hn1 hvi ⊢
  split
  · rw [Int.min_eq_right (by omega)]; rfl
  · rw [Int.min_eq_left (by omega)]; rfl

/-- C32: without offsets, or when the number of chunks is unknown, the request is ignored. -/
theorem C32_ignored (offsets : Bool) (n : Int) (m : MaxAppArg) (hn0 : -1 ≤ n) (hn1 : n ≤ 2 ^ 63 - 1)
    (h : offsets = false ∨ n = -1) : handleMaxApps offsets n m = .ok 0 := by
  have hrange : checkRange (.int n) (-1) MAX_CHUNKS = .ok () :=
    checkRange_ok (by omega) (by rw [MAX_CHUNKS_eq]; omega)
  simp only [handleMaxApps, hrange, Except.ok_bind']
  rw [if_neg]; · rfl
  · rintro ⟨h1, h2⟩; rcases h with h | h
    · rw [h] at h1; cases h1
    · exact h2 h

/-- C32: invalid requests are rejected. -/
theorem C32_rejected (n : Int) (hn0 : 0 ≤ n) (hn1 : n ≤ 2 ^ 63 - 1) :
    (∀ i, i < 0 ∨ 2 ^ 63 - 1 < i → handleMaxApps true n (.int i) = .error .valueError) ∧
    (∀ f, f n = none → handleMaxApps true n (.callable f) = .error .valueError) ∧
    (∀ f i, f n = some i → i < 0 → handleMaxApps true n (.callable f) = .error .valueError) ∧
    handleMaxApps true n .other = .error .typeError := by
  have hne : n ≠ -1 := by omega
  have hrange : checkRange (.int n) (-1) MAX_CHUNKS = .ok () :=
    checkRange_ok (by omega) (by rw [MAX_CHUNKS_eq]; omega)
  refine ⟨?_, ?_, ?_, ?_⟩
  · intro i hi
    have : checkRange (.int i) 0 MAX_CHUNKS = .error .valueError :=
      checkRange_bad (by rw [MAX_CHUNKS_eq]; omega)
    simp [handleMaxApps, hrange, hne, MaxAppArg.eval, this]
  · intro f hf; simp [handleMaxApps, hrange, hne, MaxAppArg.eval, hf]
  · intro f i hf hi; simp [handleMaxApps, hrange, hne, MaxAppArg.eval, hf, hi]
  · simp [handleMaxApps, hrange, hne, MaxAppArg.eval]

/-- C32: whatever it returns is in range, so a header that is valid without append chunks stays valid with them. -/
theorem C32_header (h : BloscpackHeader) (m : MaxAppArg) (v : Int) (hv : handleMaxApps h.offsets h.nchunks m = .ok v)
    (hh : BloscpackHeader.new { h with max_app_chunks := 0 } = .ok { h with max_app_chunks := 0 }) :
    0 ≤ v ∧ h.nchunks + v ≤ 2 ^ 63 - 1 ∧
    BloscpackHeader.new { h with max_app_chunks := v } = .ok { h with max_app_chunks := v } := by
  have hM := MAX_CHUNKS_eq
  have hok := ((BloscpackHeader.new_iff _ _).1 hh).1
  obtain ⟨h1, h2, h3, h4, h5, h6, h7, h8, h9, h10⟩ := hok
  dsimp only at h1 h2 h3 h4 h5 h6 h7 h8 h9 h10
  have hvr : 0 ≤ v ∧ h.nchunks + v ≤ 2 ^ 63 - 1 ∧ (h.nchunks = -1 → v = 0) := by
    unfold handleMaxApps at hv
    rw [checkRange_ok h6.1 (by omega), Except.ok_bind'] at hv
    split at hv
    · rename_i hc
      rw [Except.bind_ok_iff] at hv
      obtain ⟨r, hr, hv⟩ := hv
      have hr0 : 0 ≤ r := by
        unfold MaxAppArg.eval at hr
        split at hr
        · split at hr
          · cases hr
          · split at hr
            · cases hr
            · cases hr; omega
        · rw [Except.bind_ok_iff] at hr
          obtain ⟨_, hr, hr'⟩ := hr
          cases hr'
          exact (checkRange_iff.1 hr).1
        · cases hr
      split at hv
      · cases hv; omega
      · cases hv; omega
    · cases hv; omega
  refine ⟨hvr.1, hvr.2.1, (BloscpackHeader.new_iff _ _).2 ⟨?_, rfl⟩⟩
  exact ⟨h1, h2, h3, h4, h5, h6, ⟨hvr.1, by dsimp only; omega⟩, fun _ => hvr.2.1, hvr.2.2, h10⟩

example : handleMaxApps true 5 DEFAULT_MAX_APP_CHUNKS = .ok 50 ∧
    handleMaxApps true (2 ^ 63 - 3) DEFAULT_MAX_APP_CHUNKS = .ok 2 ∧
    handleMaxApps false 5 (.int 7) = .ok 0 ∧ handleMaxApps true 5 (.int (-1)) = .error .valueError := by decide

/-! ### C33 -/

/-- C33: the check passes iff the dict has exactly the documented keys, otherwise `ValueError`. -/
theorem C33_check_args (received expected : List String) :
    ((∀ k, k ∈ received ↔ k ∈ expected) → checkArgs received expected = .ok ()) ∧
    (¬ (∀ k, k ∈ received ↔ k ∈ expected) → checkArgs received expected = .error .valueError) := by
  have hm : (expected.filter (fun k => !received.contains k)).length = 0 ↔ ∀ k, k ∈ expected → k ∈ received := by
    rw [List.length_eq_zero_iff, List.filter_eq_nil_iff]; simp
  have he : (received.filter (fun k => !expected.contains k)).length = 0 ↔ ∀ k, k ∈ received → k ∈ expected := by
    rw [List.length_eq_zero_iff, List.filter_eq_nil_iff]; simp
  constructor
  · intro h
    simp only [checkArgs]
    rw [if_neg (by rw [Decidable.not_not, hm]; exact fun k => (h k).2), if_neg (by rw [Decidable.not_not, he]; exact fun k => (h k).1)]
  · intro h
    simp only [checkArgs]
    by_cases h1 : ∀ k, k ∈ expected → k ∈ received
    · rw [if_neg (by rw [Decidable.not_not, hm]; exact h1), if_pos]
      rw [Ne, he]
      exact fun h2 => h (fun k => ⟨h2 k, h1 k⟩)
    · rw [if_pos]; rw [Ne, hm]; exact h1

example : checkArgs ["cname", "typesize", "shuffle", "clevel"] bloscArgKeys = .ok () ∧
    checkArgs ["cname", "typesize", "shuffle"] bloscArgKeys = .error .valueError ∧
    checkArgs ["offsets", "checksum", "max_app_chunks", "x"] bloscpackArgKeys = .error .valueError := by decide

end Bloscpack
