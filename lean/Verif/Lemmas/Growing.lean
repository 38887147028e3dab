import Verif.Lemmas.Shared
/-
Reading a file to whose end another process writes.
-/
namespace Bloscpack
variable {μ : Type}

/-- what one call of `read` finds of a growing file -/
theorem bytesFrom_growing {v : Nat → Option UInt8} : ∀ {p : Nat} {R : Bytes} {n : Nat}, (∀ j, v (p + j) = none ∨ v (p + j) = R[j]?) →
    ∃ t, t ≤ n ∧ t ≤ R.length ∧ bytesFrom v p n = R.take t ∧ (t = n ∨ v (p + t) = none) ∧ ∀ j, j < t → (v (p + j)).isSome
  | _, _, 0, _ => ⟨0, by omega, by omega, by simp [bytesFrom], .inl rfl, by omega⟩
  | p, R, n + 1, h => by
    unfold bytesFrom
    cases hv : v p with
    | none => exact ⟨0, by omega, by omega, by simp, .inr hv, by omega⟩
    | some b =>
      have h0 := h 0
      rw [Nat.add_zero, hv] at h0
      cases R with
      | nil => rcases h0 with h0 | h0 <;> cases h0
      | cons x R =>
        have hx : x = b := by
          rcases h0 with h0 | h0
          · cases h0
          · simp only [List.length_cons, Nat.zero_lt_succ, List.getElem?_eq_getElem, List.getElem_cons_zero, Option.some.injEq] at h0
            exact h0.symm
        subst hx
        obtain ⟨t, h1, h2, h3, h4, h5⟩ := bytesFrom_growing (v := v) (p := p + 1) (R := R) (n := n) (fun j => by
          have := h (j + 1)
          rwa [Nat.add_comm j 1, ← Nat.add_assoc, Nat.add_comm 1 j, List.getElem?_cons_succ] at this)
        refine ⟨t + 1, by omega, by simp; omega, by simp [h3], ?_, fun j hj => ?_⟩
        · rcases h4 with h4 | h4
          · exact .inl (by omega)
          · exact .inr (by rw [show p + (t + 1) = p + 1 + t by omega]; exact h4)
        · cases j with
          | zero => rw [Nat.add_zero, hv]; rfl
          | succ j => rw [show p + (j + 1) = p + 1 + j by omega]; exact h5 j (by omega)

section
variable {v : Nat → Nat → Option UInt8} {b k p : Nat}

theorem read_growing {R : Bytes} (n : Nat) (h : ∀ j, v k (p + j) = none ∨ v k (p + j) = R[j]?) :
    ∃ t, t ≤ n ∧ t ≤ R.length ∧ fpRead (n : Int) (At v b k p) = (.ok (R.take t), At v b (k + 1) (p + t)) ∧
      (t = n ∨ v k (p + t) = none) ∧ ∀ j, j < t → (v k (p + j)).isSome := by
  obtain ⟨t, h1, h2, h3, h4, h5⟩ := bytesFrom_growing (n := n) h
  refine ⟨t, h1, h2, ?_, h4, h5⟩
  show Shared.read n _ = _
  unfold Shared.read
  simp only [show ¬ ((n : Int) < 0) by omega, if_false, Int.toNat_natCast, h3, List.length_take, Nat.min_eq_left h2]

/-- `c` is a chunk whose digest, or what begins with it, blosc does not take for a chunk -/
def Unmistakable (E : Env μ) (f : Bytes → Bytes) (c : Bytes) : Prop := ∀ y, (y <+: f c ∨ f c <+: y) → ∃ e, E.decompress y = .error e

/-- a round of the unpack loop that starts at a digest -/
theorem unpackLoop_mistake {E : Env μ} {h : BloscpackHeader} {impl : Hash} {D R O : Bytes} {lo}
    (hs : ∀ k j, v k (p + j) = none ∨ v k (p + j) = (D ++ R)[j]?)
    (hno : ∀ y, (y <+: D ∨ D <+: y) → ∃ e, E.decompress y = .error e) (fuel i : Nat) :
    ∃ e, (unpackLoop (compressedFPSource h impl) (plainFPSinkPut E) (fuel + 1) i (At v b k p, Z O [] lo)).1 = .error e := by
  obtain ⟨t, t1, t2, t3, -, -⟩ := read_growing (b := b) 16 (hs k)
  have t3' : fpRead (BLOSC_HEADER_LENGTH : Int) (At v b k p) = _ := t3
  have hread : ∀ (n : Int) (s : Shared), ∃ x s', fpRead n s = (.ok x, s') := fun n s => ⟨_, _, rfl⟩
  by_cases ht : t < 16
  · obtain ⟨e, he⟩ := decodeBloscHeader_short (b := (D ++ R).take t) (by simp; omega)
    have hn : (compressedFPSource h impl).next i (At v b k p) = (.error e, At v b (k + 1) (p + t)) := by
      show (readCompressedChunk impl >>= fun r => Proc.pure (r.1, r.2.2)) _ = _
      refine Proc.bind_of_error ?_
      unfold readCompressedChunk
      rw [Proc.bind_of_ok t3', Proc.bind_of_error (Proc.ofExcept_apply _ _ |>.trans (by rw [he]))]
    refine ⟨e, ?_⟩
    show ((Proc.onFst ((compressedFPSource h impl).next i) >>= _) _).1 = _
    rw [Proc.bind_of_error (e := e) (s' := (At v b (k + 1) (p + t), Z O [] lo)) (by rw [Proc.onFst_apply, hn])]
  · have ht : t = 16 := by omega
    subst ht
    obtain ⟨bh, e1, e2⟩ := decodeBloscHeader_ctbytes (b := (D ++ R).take 16) (by rw [List.length_take]; omega)
    have hseek : fpSeekRel (-(BLOSC_HEADER_LENGTH : Int)) (At v b (k + 1) (p + 16)) = (.ok (), At v b (k + 1) p) :=
      seekRel_at _ p (by unfold BLOSC_HEADER_LENGTH; omega)
    obtain ⟨u, u1, u2, u3, -, -⟩ := read_growing (b := b) (k := k + 1) (leDecode (slice ((D ++ R).take 16) 12 16)) (hs (k + 1))
    have u3' : fpRead bh.ctbytes (At v b (k + 1) p) = (.ok ((D ++ R).take u), At v b (k + 2) (p + u)) := by rw [e2]; exact u3
    obtain ⟨e, he⟩ := hno _ (List.prefix_or_prefix_of_prefix (List.take_prefix u (D ++ R)) (List.prefix_append D R))
    have hn : ∃ dg s', (compressedFPSource h impl).next i (At v b k p) = (.ok ((D ++ R).take u, dg), s') := by
      obtain ⟨x, s', hx⟩ := hread impl.size (At v b (k + 2) (p + u))
      by_cases hsz : impl.size > 0
      · refine ⟨some x, s', ?_⟩
        show (readCompressedChunk impl >>= fun r => Proc.pure (r.1, r.2.2)) _ = _
        rw [Proc.bind_of_ok (a := ((D ++ R).take u, bh, some x)) (s' := s')]
        · rfl
        · unfold readCompressedChunk
          rw [Proc.bind_of_ok t3', Proc.bind_of_ok (Proc.ofExcept_apply _ _ |>.trans (by rw [e1])), Proc.bind_of_ok hseek,
            Proc.bind_of_ok u3']
          simp only [if_pos hsz]
          rw [Proc.bind_of_ok hx]
          rfl
      · refine ⟨none, At v b (k + 2) (p + u), ?_⟩
        show (readCompressedChunk impl >>= fun r => Proc.pure (r.1, r.2.2)) _ = _
        rw [Proc.bind_of_ok (a := ((D ++ R).take u, bh, none)) (s' := At v b (k + 2) (p + u))]
        · rfl
        · unfold readCompressedChunk
          rw [Proc.bind_of_ok t3', Proc.bind_of_ok (Proc.ofExcept_apply _ _ |>.trans (by rw [e1])), Proc.bind_of_ok hseek,
            Proc.bind_of_ok u3']
          simp only [if_neg hsz]
          rfl
    obtain ⟨dg, s', hn⟩ := hn
    have hstep : unpackLoop (compressedFPSource h impl) (plainFPSinkPut E) (fuel + 1) i (At v b k p, Z O [] lo) =
        (Proc.ofExcept (checkDigest impl ((D ++ R).take u) dg) >>= fun _ => Proc.onSnd (plainFPSinkPut E ((D ++ R).take u)) >>= fun _ =>
          unpackLoop (compressedFPSource h impl) (plainFPSinkPut E) fuel (i + 1)) (s', Z O [] lo) := by
      show (Proc.onFst ((compressedFPSource h impl).next i) >>= _) _ = _
      rw [Proc.bind_of_ok (a := ((D ++ R).take u, dg)) (s' := (s', Z O [] lo)) (by rw [Proc.onFst_apply, hn])]
      rfl
    rw [hstep]
    cases hcd : checkDigest impl ((D ++ R).take u) dg with
    | error e => exact ⟨e, by rw [Proc.bind_of_error (Proc.ofExcept_apply _ _)]⟩
    | ok _ =>
      rw [Proc.bind_of_ok (Proc.ofExcept_apply _ _)]
      have hp : plainFPSinkPut E ((D ++ R).take u) (Z O [] lo) = (.error e, Z O [] lo) := by
        unfold plainFPSinkPut
        rw [Proc.bind_of_error (Proc.ofExcept_apply _ _ |>.trans (by rw [he]))]
      exact ⟨e, by rw [Proc.bind_of_error (e := e) (s' := (s', Z O [] lo)) (by rw [Proc.onSnd_apply, hp])]⟩

/-- one round of the unpack loop over a chunk that may not be there yet -/
theorem unpackLoop_step_growing {E : Env μ} (L : E.Laws) {h : BloscpackHeader} {impl : Hash} (hi : impl ∈ checksums E.hashlib)
    {c d O R : Bytes} {lo} (hc : E.decompress c = .ok d)
    (hs : ∀ k j, v k (p + j) = none ∨ v k (p + j) = ((c ++ impl.function c) ++ R)[j]?)
    (hpair : impl.size = 0 ∨ (∀ k k', k' < k → (v k' (p + c.length - 1)).isSome → (v k (p + c.length)).isSome) ∨
      Unmistakable E impl.function c) (fuel i : Nat) :
    (∃ e, (unpackLoop (compressedFPSource h impl) (plainFPSinkPut E) (fuel + 1) i (At v b k p, Z O [] lo)).1 = .error e) ∨
    ∃ k' p' lo', unpackLoop (compressedFPSource h impl) (plainFPSinkPut E) (fuel + 1) i (At v b k p, Z O [] lo) =
      unpackLoop (compressedFPSource h impl) (plainFPSinkPut E) fuel (i + 1)
        (At v b k' p', Z (O ++ d) [] lo') ∧
      (p' = p + (c ++ impl.function c).length ∨ p' = p + c.length ∧ Unmistakable E impl.function c) := by
  have hfr := framed_of_decompress L hc
  have hD := Hash.size_eq L hi c
  obtain ⟨t, t1, t2, t3, t4, -⟩ := read_growing (b := b) 16 (hs k)
  by_cases ht : t < 16
  · -- not even a blosc header
    left
    obtain ⟨e, he⟩ := decodeBloscHeader_short (b := ((c ++ impl.function c) ++ R).take t) (by simp; omega)
    have hn : (compressedFPSource h impl).next i (At v b k p) = (.error e, At v b (k + 1) (p + t)) := by
      show (readCompressedChunk impl >>= fun r => Proc.pure (r.1, r.2.2)) _ = _
      refine Proc.bind_of_error ?_
      unfold readCompressedChunk
      have t3' : fpRead (BLOSC_HEADER_LENGTH : Int) (At v b k p) = _ := t3
      rw [Proc.bind_of_ok t3', Proc.bind_of_error (Proc.ofExcept_apply _ _ |>.trans (by rw [he]))]
    refine ⟨e, ?_⟩
    show ((Proc.onFst ((compressedFPSource h impl).next i) >>= _) _).1 = _
    rw [Proc.bind_of_error (e := e) (s' := (At v b (k + 1) (p + t), Z O [] lo)) (by rw [Proc.onFst_apply, hn])]
  · have ht : t = 16 := by omega
    subst ht
    have h16 : ((c ++ impl.function c) ++ R).take 16 = c.take 16 := by
      rw [List.append_assoc, List.take_append_of_le_length hfr.1]
    rw [h16] at t3
    obtain ⟨bh, e1, e2⟩ := decodeBloscHeader_ctbytes (b := c.take 16) (by have := hfr.1; simp; omega)
    have hsl : slice (c.take 16) 12 16 = slice c 12 16 := by
      conv => rhs; rw [← List.take_append_drop 16 c]
      rw [slice_append_left]; have := hfr.1; simp; omega
    rw [hsl, hfr.2] at e2
    obtain ⟨u, u1, u2, u3, u4, u5⟩ := read_growing (b := b) (k := k + 1) c.length (hs (k + 1))
    have hu : ((c ++ impl.function c) ++ R).take u = c.take u := by
      rw [List.append_assoc, List.take_append_of_le_length u1]
    rw [hu] at u3
    have t3' : fpRead (BLOSC_HEADER_LENGTH : Int) (At v b k p) = _ := t3
    have hseek : fpSeekRel (-(BLOSC_HEADER_LENGTH : Int)) (At v b (k + 1) (p + 16)) = (.ok (), At v b (k + 1) p) :=
      seekRel_at _ p (by unfold BLOSC_HEADER_LENGTH; omega)
    have u3' : fpRead bh.ctbytes (At v b (k + 1) p) = (.ok (c.take u), At v b (k + 2) (p + u)) := by rw [e2]; exact u3
    -- what comes next
    have hnext : ∃ dg s', (compressedFPSource h impl).next i (At v b k p) = (.ok (c.take u, dg), s') ∧
        (u = c.length → (∃ k' p', s' = At v b k' p' ∧
            (p' = p + (c ++ impl.function c).length ∨ p' = p + c.length ∧ Unmistakable E impl.function c)) ∨
          ∃ e, checkDigest impl (c.take u) dg = .error e) := by
      by_cases hsz : impl.size > 0
      · obtain ⟨w, w1, w2, w3, w4, w5⟩ := read_growing (b := b) (k := k + 2) (p := p + u)
          (R := ((c ++ impl.function c) ++ R).drop u) impl.size (fun j => by
            rw [List.getElem?_drop, Nat.add_assoc]; exact hs (k + 2) (u + j))
        refine ⟨some ((((c ++ impl.function c) ++ R).drop u).take w), At v b (k + 3) (p + u + w), ?_, fun hcu => ?_⟩
        · show (readCompressedChunk impl >>= fun r => Proc.pure (r.1, r.2.2)) _ = _
          rw [Proc.bind_of_ok (a := (c.take u, bh, some ((((c ++ impl.function c) ++ R).drop u).take w))) (s' := At v b (k + 3) (p + u + w))]
          · rfl
          · unfold readCompressedChunk
            rw [Proc.bind_of_ok t3', Proc.bind_of_ok (Proc.ofExcept_apply _ _ |>.trans (by rw [e1])), Proc.bind_of_ok hseek,
              Proc.bind_of_ok u3']
            simp only [if_pos hsz]
            rw [Proc.bind_of_ok w3]
            rfl
        · subst hcu
          have hdr : (((c ++ impl.function c) ++ R).drop c.length) = impl.function c ++ R := by simp
          rw [hdr, List.take_append_of_le_length (by omega), List.take_length]
          by_cases hw : w = impl.size
          · left
            subst hw
            rw [← hD]
            exact ⟨k + 3, _, rfl, .inl (by simp [Nat.add_assoc])⟩
          · by_cases hw0 : w = 0
            · left
              subst hw0
              refine ⟨k + 3, _, rfl, .inr ⟨by omega, ?_⟩⟩
              rcases hpair with h0 | hpair | hpair
              · omega
              · have := hpair (k + 2) (k + 1) (by omega) (by
                  have := u5 (c.length - 1) (by have := hfr.1; omega)
                  rwa [← Nat.add_sub_assoc (by have := hfr.1; omega)] at this)
                rcases w4 with w4 | w4
                · omega
                · simp only [Nat.add_zero] at w4
                  rw [w4] at this
                  cases this
              · exact hpair
            right
            refine ⟨.checksumMismatch, ?_⟩
            unfold checkDigest
            simp only
            rw [if_pos]
            constructor
            · intro h0
              have := congrArg List.length h0
              rw [List.length_take] at this
              rw [List.length_nil] at this; omega
            · intro h0
              have := congrArg List.length h0
              rw [List.length_take] at this
              omega
      · refine ⟨none, At v b (k + 2) (p + u), ?_, fun hcu => .inl ⟨k + 2, _, rfl, .inl ?_⟩⟩
        · show (readCompressedChunk impl >>= fun r => Proc.pure (r.1, r.2.2)) _ = _
          rw [Proc.bind_of_ok (a := (c.take u, bh, none)) (s' := At v b (k + 2) (p + u))]
          · rfl
          · unfold readCompressedChunk
            rw [Proc.bind_of_ok t3', Proc.bind_of_ok (Proc.ofExcept_apply _ _ |>.trans (by rw [e1])), Proc.bind_of_ok hseek,
              Proc.bind_of_ok u3']
            simp only [if_neg hsz]
            rfl
        · rw [hcu, List.length_append, hD, show impl.size = 0 by omega]
          rfl
    obtain ⟨dg, s', hn, hfull⟩ := hnext
    have hstep : unpackLoop (compressedFPSource h impl) (plainFPSinkPut E) (fuel + 1) i (At v b k p, Z O [] lo) =
        (Proc.ofExcept (checkDigest impl (c.take u) dg) >>= fun _ => Proc.onSnd (plainFPSinkPut E (c.take u)) >>= fun _ =>
          unpackLoop (compressedFPSource h impl) (plainFPSinkPut E) fuel (i + 1)) (s', Z O [] lo) := by
      show (Proc.onFst ((compressedFPSource h impl).next i) >>= _) _ = _
      rw [Proc.bind_of_ok (a := (c.take u, dg)) (s' := (s', Z O [] lo)) (by rw [Proc.onFst_apply, hn])]
      rfl
    rw [hstep]
    cases hcd : checkDigest impl (c.take u) dg with
    | error e => exact .inl ⟨e, by rw [Proc.bind_of_error (Proc.ofExcept_apply _ _)]⟩
    | ok _ =>
      rw [Proc.bind_of_ok (Proc.ofExcept_apply _ _)]
      by_cases hcu : u = c.length
      · right
        rcases hfull hcu with ⟨k', p', rfl, hp'⟩ | ⟨e, he⟩
        · subst hcu
          refine ⟨k', p', lo ++ [(O.length, d)], ?_, hp'⟩
          have hp : plainFPSinkPut E (c.take c.length) (Z O [] lo) = (.ok (), Z (O ++ d) [] (lo ++ [(O.length, d)])) := by
            unfold plainFPSinkPut
            rw [List.take_length, Proc.bind_of_ok (Proc.ofExcept_apply _ _ |>.trans (by rw [hc])), fpWrite_Z]
            simp
          rw [Proc.bind_of_ok (a := ()) (s' := (At v b k' p', Z (O ++ d) [] (lo ++ [(O.length, d)])))
            (by rw [Proc.onSnd_apply, hp])]
        · rw [hcd] at he; cases he
      · left
        cases hdc : E.decompress (c.take u) with
        | ok d' =>
          exfalso
          obtain ⟨f1, f2⟩ := framed_of_decompress L hdc
          rw [List.length_take, Nat.min_eq_left u1] at f1 f2
          have : slice (c.take u) 12 16 = slice c 12 16 := by
            conv => rhs; rw [← List.take_append_drop u c]
            rw [slice_append_left]; simp; omega
          rw [this, hfr.2] at f2
          exact hcu f2.symm
        | error e =>
          have hp : plainFPSinkPut E (c.take u) (Z O [] lo) = (.error e, Z O [] lo) := by
            unfold plainFPSinkPut
            rw [Proc.bind_of_error (Proc.ofExcept_apply _ _ |>.trans (by rw [hdc]))]
          exact ⟨e, by rw [Proc.bind_of_error (e := e) (s' := (s', Z O [] lo)) (by rw [Proc.onSnd_apply, hp])]⟩

/-- the unpack loop over chunks that may not be there yet -/
theorem unpackLoop_growing {E : Env μ} (L : E.Laws) {h : BloscpackHeader} {impl : Hash} (hi : impl ∈ checksums E.hashlib)
    (chs : List (Bytes × Bytes)) (hch : ∀ q ∈ chs, E.decompress q.1 = .ok q.2) {k p : Nat} {O : Bytes} {lo}
    (hs : ∀ k j, v k (p + j) = none ∨ v k (p + j) = (Spec.records impl.function (chs.map (·.1)))[j]?)
    (hpair : impl.size = 0 ∨ ∀ xs q ys, chs = xs ++ q :: ys → (∀ k k', k' < k →
      (v k' (p + (Spec.records impl.function (xs.map (·.1))).length + q.1.length - 1)).isSome →
      (v k (p + (Spec.records impl.function (xs.map (·.1))).length + q.1.length)).isSome) ∨ Unmistakable E impl.function q.1) (fuel i : Nat) (hf : chs.length ≤ fuel) :
    (∃ e, (unpackLoop (compressedFPSource h impl) (plainFPSinkPut E) fuel i (At v b k p, Z O [] lo)).1 = .error e) ∨
    fuel = chs.length ∧ ∃ s lo', unpackLoop (compressedFPSource h impl) (plainFPSinkPut E) fuel i (At v b k p, Z O [] lo) =
      (.ok (), s, Z (O ++ (chs.map (·.2)).flatten) [] lo') := by
  induction chs generalizing k p O lo i fuel with
  | nil =>
    cases fuel with
    | zero => exact .inr ⟨rfl, At v b k p, lo, by simp [unpackLoop]⟩
    | succ fuel =>
      left
      obtain ⟨t, t1, t2, t3, -⟩ := read_growing (b := b) 16 (hs k)
      have ht : t = 0 := by simpa using t2
      subst ht
      obtain ⟨e, he⟩ := decodeBloscHeader_short (b := []) (by simp)
      have hn : (compressedFPSource h impl).next i (At v b k p) = (.error e, At v b (k + 1) p) := by
        show (readCompressedChunk impl >>= fun r => Proc.pure (r.1, r.2.2)) _ = _
        refine Proc.bind_of_error ?_
        unfold readCompressedChunk
        have t3' : fpRead (BLOSC_HEADER_LENGTH : Int) (At v b k p) = _ := t3
        rw [Proc.bind_of_ok t3', List.take_zero, Proc.bind_of_error (Proc.ofExcept_apply _ _ |>.trans (by rw [he]))]
        rfl
      refine ⟨e, ?_⟩
      show ((Proc.onFst ((compressedFPSource h impl).next i) >>= _) _).1 = _
      rw [Proc.bind_of_error (e := e) (s' := (At v b (k + 1) p, Z O [] lo)) (by rw [Proc.onFst_apply, hn])]
  | cons q qs ih =>
    cases fuel with
    | zero => simp at hf
    | succ fuel =>
      simp only [List.map_cons, records_cons] at hs
      have hpair1 : impl.size = 0 ∨ (∀ k k', k' < k → (v k' (p + q.1.length - 1)).isSome → (v k (p + q.1.length)).isSome) ∨
          Unmistakable E impl.function q.1 := by
        rcases hpair with h0 | hpair
        · exact .inl h0
        · exact .inr (by simpa [Spec.records] using hpair [] q qs rfl)
      rcases unpackLoop_step_growing (b := b) (k := k) (O := O) (lo := lo) (h := h) L hi (hch q List.mem_cons_self) hs hpair1 fuel i with
        he | ⟨k1, p1, lo1, h1, rfl | ⟨rfl, hno⟩⟩
      · exact .inl he
      · rw [h1]
        rcases ih (fun r hr => hch r (List.mem_cons_of_mem _ hr)) (k := k1) (O := O ++ q.2) (lo := lo1)
          (p := p + (q.1 ++ impl.function q.1).length) (fun k j => by
            have := hs k ((q.1 ++ impl.function q.1).length + j)
            rw [← Nat.add_assoc, List.getElem?_append_right (by omega), Nat.add_sub_cancel_left] at this
            exact this) (by
            rcases hpair with h0 | hpair
            · exact .inl h0
            · right
              intro xs r ys he
              have := hpair (q :: xs) r ys (by rw [he]; rfl)
              simpa [records_cons, Nat.add_assoc] using this) fuel (i + 1) (by simpa using hf) with he | ⟨hl, s, lo2, h2⟩
        · exact .inl he
        · refine .inr ⟨by simp [hl], s, lo2, ?_⟩
          rw [h2]
          simp
      · rw [h1]
        cases fuel with
        | zero =>
          have : qs = [] := by simpa using hf
          subst this
          exact .inr ⟨rfl, At v b k1 (p + q.1.length), lo1, by simp [unpackLoop]⟩
        | succ fuel =>
          left
          refine unpackLoop_mistake (D := impl.function q.1) (R := Spec.records impl.function (qs.map (·.1))) (fun k j => ?_) hno fuel (i + 1)
          have := hs k (q.1.length + j)
          rwa [← Nat.add_assoc, List.append_assoc, List.getElem?_append_right (by omega), Nat.add_sub_cancel_left] at this

end

end Bloscpack
