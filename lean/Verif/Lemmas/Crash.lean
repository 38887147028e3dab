import Verif.Lemmas.Damage
import Verif.Lemmas.PackFile
import Verif.Spec.Crash
/-
Incomplete files, and the contents of files after a part of the writes.
-/
namespace Bloscpack
variable {μ : Type}

/-- a file with missing chunks, cut anywhere, is not accepted -/
theorem unpackFrom_incomplete {E : Env μ} (L : E.Laws) {F : File μ} (hv : F.Pre E) (hj : F.junk = [])
    (hn : (F.chunks.length : Int) < F.header.nchunks) (k : Nat) (hk : k ≤ (F.bytes E).length) :
    ∃ e o, unpackFrom E ((F.bytes E).take k) = (.error e, o) := by
  by_cases hlast : k = (F.bytes E).length
  · rw [hlast, List.take_length]
    obtain ⟨e, he⟩ := unpackFrom_stuck L hv hn (by rw [hj]; decide)
    exact ⟨e, _, he⟩
  obtain ⟨-, hl2, -⟩ := File.lookup hv
  have hbytes : F.bytes E = F.front E ++ F.body E := by simp [File.bytes, hj]
  by_cases hf : k < (F.front E).length
  · have h1 : (F.bytes E).take k = (F.front E).take k := by rw [hbytes, List.take_append_of_le_length (by omega)]
    obtain ⟨e, he⟩ := unpackFrom_front_cut L hv (by omega) k hf
    exact ⟨e, _, by rw [h1, he]⟩
  · have hk' : k < (F.front E ++ F.body E).length := by rw [← hbytes]; omega
    rw [List.length_append] at hk'
    have h1 : (F.bytes E).take k = F.front E ++ (F.body E).take (k - (F.front E).length) := by
      rw [hbytes, List.take_append, List.take_of_length_le (by omega)]
    obtain ⟨pre, p, post, part, c1, c2, c3, c4, c5⟩ := records_cut (F.impl E).function F.chunks (k - (F.front E).length)
      (by unfold File.body at hk'; omega)
    have hlen : F.chunks.length = pre.length + (post.length + 1) := by rw [c1]; simp
    let G : File μ := { F with chunks := pre, junk := part }
    have hGb : G.bytes E = (F.bytes E).take k := by
      rw [h1]; show F.front E ++ (Spec.records (F.impl E).function (pre.map (·.1)) ++ part) = _
      rw [File.body, c2]
    have hGp : G.Pre E := { hv with
      nchunks_le := by
        show (pre.length : Int) ≤ F.header.nchunks
        omega
      chunks_ok := fun q hq => hv.chunks_ok q (by rw [c1]; exact List.mem_append_left _ hq) }
    have hGn : (G.chunks.length : Int) < G.header.nchunks := by
      show (pre.length : Int) < F.header.nchunks
      omega
    have hp := hv.chunks_ok p (by rw [c1]; simp)
    obtain ⟨hp16, hplen⟩ := framed_of_decompress L hp
    have hsz := Hash.size_eq L hl2 p.1
    have hGi : G.impl E = F.impl E := rfl
    rw [List.length_append, hsz] at c3
    rw [← hGb]
    have hpartpre : ∀ n, n ≤ p.1.length → n ≤ part.length → part.take n = p.1.take n := by
      intro n h1 h2
      rw [c4, List.take_take, Nat.min_eq_left h2, List.take_append_of_le_length h1]
    have hslice : 16 ≤ part.length → slice part 12 16 = slice p.1 12 16 := by
      intro h
      have e1 : slice (part.take 16) 12 16 = slice part 12 16 := by
        conv => rhs; rw [← List.take_append_drop 16 part]
        rw [slice_append_left]; simp; omega
      have e2 : slice (p.1.take 16) 12 16 = slice p.1 12 16 := by
        conv => rhs; rw [← List.take_append_drop 16 p.1]
        rw [slice_append_left]; simp; omega
      rw [← e1, ← e2, hpartpre 16 hp16 h]
    by_cases hs16 : part.length < 16
    · obtain ⟨e, he⟩ := unpackFrom_stuck L hGp hGn hs16
      exact ⟨e, _, he⟩
    by_cases hcut : part.length < p.1.length
    · have hlt : G.junk.length < leDecode (slice G.junk 12 16) := by
        show part.length < leDecode (slice part 12 16)
        rw [hslice (by omega), hplen]; exact hcut
      obtain ⟨e, he⟩ := unpackFrom_cut L hGp hGn (by show 16 ≤ part.length; omega) hlt
      exact ⟨e, _, he⟩
    have hpart : part = p.1 ++ ((F.impl E).function p.1).take (part.length - p.1.length) := by
      rw [c4, List.length_take, List.length_append, hsz, Nat.min_eq_left (by omega), List.take_append,
        List.take_of_length_le (by omega)]
    by_cases hz : part.length = p.1.length
    · have hpp : part = p.1 := by rw [hpart, hz]; simp
      have hGj : G.junk = p.1 := hpp
      obtain ⟨lo, hG⟩ := unpackFrom_pre L hGp
      obtain ⟨j, hjj⟩ : ∃ j, G.header.nchunks.toNat - G.chunks.length = j + 1 + 1 := by
        have e1 : G.header.nchunks = F.header.nchunks := rfl
        have e2 : G.chunks.length = pre.length := rfl
        exact ⟨G.header.nchunks.toNat - G.chunks.length - 2, by omega⟩
      have hround := (unpackLoop_round (E := E) (h := G.header) (impl := G.impl E) (G.front E ++ G.body E) G.junk []
        G.data lo (j + 1) G.chunks.length (by show 16 ≤ part.length; omega) p.1 [] []
        (by rw [hGj, hplen, List.take_length])
        (by rw [hGj, hplen, List.drop_length, List.take_nil])
        (by rw [hGj, hplen, List.drop_length, List.drop_nil])).2 (by simp)
      obtain ⟨e, s, he⟩ := unpackLoop_short (E := E) (h := G.header) (impl := G.impl E) (G.front E ++ G.body E ++ p.1 ++ [])
        [] [] (Z (G.data ++ p.2) [] (lo ++ [(G.data.length, p.2)])) j (G.chunks.length + 1) (by simp)
      rw [hG, hjj, hround.2 _ hp, he]
      exact ⟨e, _, rfl⟩
    · have hlen2 : (((F.impl E).function p.1).take (part.length - p.1.length)).length = part.length - p.1.length := by
        rw [List.length_take, hsz]; omega
      have he := unpackFrom_mismatch L hGp hGn p.1 (((F.impl E).function p.1).take (part.length - p.1.length)) []
        (by rw [List.append_nil]; exact hpart) hp16 hplen (by rw [hGi, hlen2]; omega) (fun _ => rfl)
        (by intro hx; rw [hx] at hlen2; simp at hlen2; omega)
        (by intro hx; rw [hx] at hlen2; rw [hGi, hsz] at hlen2; omega)
      exact ⟨_, _, he⟩

/-! ### writes one after the other -/

theorem replay_append (d : Bytes) (a b : List (Nat × Bytes)) : Spec.replay d (a ++ b) = Spec.replay (Spec.replay d a) b := by
  simp [Spec.replay]

theorem replay_seqLog (A : Bytes) (bss : List Bytes) : Spec.replay A (seqLog A.length bss) = A ++ bss.flatten := by
  induction bss generalizing A with
  | nil => simp [seqLog, Spec.replay]
  | cons b bs ih =>
    have h := overlay_append A [] b
    simp only [List.append_nil, List.drop_nil] at h
    show Spec.replay (overlay A A.length b) (seqLog (A.length + b.length) bs) = _
    rw [h, ← List.length_append, ih]
    simp

theorem seqLog_split (p : Nat) (bss : List Bytes) {done todo q bs} (h : seqLog p bss = done ++ (q, bs) :: todo) :
    ∃ x y, bss = x ++ bs :: y ∧ done = seqLog p x ∧ q = p + x.flatten.length := by
  induction bss generalizing p done with
  | nil => simp [seqLog] at h
  | cons b rest ih =>
    cases done with
    | nil =>
      simp only [seqLog, List.nil_append, List.cons.injEq, Prod.mk.injEq] at h
      exact ⟨[], rest, by rw [h.1.2]; rfl, rfl, by simp [h.1.1]⟩
    | cons w ws =>
      simp only [seqLog, List.cons_append, List.cons.injEq] at h
      obtain ⟨x, y, h1, h2, h3⟩ := ih _ h.2
      refine ⟨b :: x, y, by rw [h1]; rfl, by rw [← h.1, h2]; rfl, by rw [h3]; simp; omega⟩

/-- sequential writes to an empty file: a crash leaves a prefix -/
theorem crashed_seqLog {bss : List Bytes} {d : Bytes} (h : Spec.Crashed [] (seqLog 0 bss) d) :
    ∃ k, k ≤ bss.flatten.length ∧ d = bss.flatten.take k := by
  rcases h with rfl | ⟨done, p, bs, todo, t, h1, rfl⟩
  · exact ⟨0, by omega, by simp⟩
  · obtain ⟨x, y, rfl, rfl, rfl⟩ := seqLog_split _ _ h1
    have hr := replay_seqLog [] x
    simp only [List.length_nil, List.nil_append] at hr
    rw [hr, Nat.zero_add]
    have ho := overlay_append x.flatten [] (bs.take t)
    simp only [List.append_nil, List.drop_nil] at ho
    rw [ho]
    refine ⟨x.flatten.length + min t bs.length, ?_, ?_⟩
    · simp; omega
    · have hm : bs.take t = bs.take (min t bs.length) := by
        by_cases ht : t ≤ bs.length
        · rw [Nat.min_eq_left ht]
        · rw [Nat.min_eq_right (by omega), List.take_of_length_le (by omega), List.take_length]
      rw [hm]
      have hle : min t bs.length ≤ bs.length := Nat.min_le_right _ _
      generalize min t bs.length = k at hle
      rw [List.flatten_append, List.flatten_cons, List.take_length_add_append, List.take_append_of_le_length hle]

end Bloscpack
