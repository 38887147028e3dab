import Verif.Props.Race
import Verif.Props.AppendCrash
/-
C112: several processes that pack different data to the same file at the same time.
-/
namespace Bloscpack
variable {μ : Type}

/-! ### lemmas: every byte is one of somebody's archive -/

theorem started_mem (ws : Nat → List (Nat × UInt8)) (before : Bytes) (schedule : List Nat) (p : Nat)
    (h : (Spec.race ws before schedule).written p ≠ none) : p ∈ schedule := by
  have : ∀ (l : List Nat) (s : Spec.Race), s.written p = none → p ∉ l → (l.foldl (Spec.Race.step ws) s).written p = none := by
    intro l
    induction l with
    | nil => intro s hs _; exact hs
    | cons q l ih =>
      intro s hs hp
      rw [List.mem_cons, not_or] at hp
      refine ih _ ?_ hp.2
      unfold Spec.Race.step
      split
      · simp only [if_neg hp.1]; exact hs
      · split
        · exact hs
        · simp only [if_neg hp.1]; exact hs
  by_cases hp : p ∈ schedule
  · exact hp
  · exact absurd (this schedule _ rfl hp) h

theorem mem_started (ws : Nat → List (Nat × UInt8)) (before : Bytes) (schedule : List Nat) (p : Nat) (hp : p ∈ schedule) :
    (Spec.race ws before schedule).written p ≠ none := by
  have keep : ∀ (q : Nat) (s : Spec.Race), s.written p ≠ none → (s.step ws q).written p ≠ none := by
    intro q s h
    unfold Spec.Race.step
    split
    · simp only; split
      · nofun
      · exact h
    · split
      · exact h
      · simp only; split
        · nofun
        · exact h
  have keeps : ∀ (l : List Nat) (s : Spec.Race), s.written p ≠ none → (l.foldl (Spec.Race.step ws) s).written p ≠ none := by
    intro l
    induction l with
    | nil => intro s h; exact h
    | cons q l ih => intro s h; exact ih _ (keep q s h)
  have : ∀ (l : List Nat) (s : Spec.Race), p ∈ l → (l.foldl (Spec.Race.step ws) s).written p ≠ none := by
    intro l
    induction l with
    | nil => intro s h; cases h
    | cons q l ih =>
      intro s h
      rcases List.mem_cons.1 h with rfl | h
      · refine keeps l _ ?_
        unfold Spec.Race.step
        cases hs : s.written p with
        | none => simp
        | some k =>
          simp only
          split
          · rw [hs]; nofun
          · simp
      · exact ih _ h
  exact this schedule _ hp

/-- a process alone -/
theorem alone_raced (ws : List (Nat × UInt8)) :
    Raced (fun _ => ws) (ws.foldl (fun d w => overlay d w.1 [w.2]) []) (fun _ => 0) (fun p => if p = 0 then ws.length else 0) := by
  have halone : ∀ (l : List (Nat × UInt8)) (n : Nat) (f : Bytes), Raced (fun _ => ws) f (fun _ => 0) (fun p => if p = 0 then n else 0) → ws.drop n = l →
      Raced (fun _ => ws) (l.foldl (fun d w => overlay d w.1 [w.2]) f) (fun _ => 0) (fun p => if p = 0 then ws.length else 0) := by
    intro l
    induction l with
    | nil =>
      intro n f h hd
      have : n = ws.length := by
        have h1 := h.le 0
        have h2 := congrArg List.length hd
        simp at h1 h2
        omega
      rw [← this]
      exact h
    | cons w l ih =>
      intro n f h hd
      have hw : ws[n]? = some w := by
        have := congrArg List.head? hd
        rw [List.head?_drop] at this
        exact this
      rw [List.foldl_cons]
      refine ih (n + 1) _ ?_ ?_
      · have := h.wrote 0 w (by simpa using hw) (by simp)
        have e : (fun q : Nat => if q = 0 then (if (0 : Nat) = 0 then n else 0) + 1 else if q = 0 then n else 0) = fun q => if q = 0 then n + 1 else 0 := by
          funext q; by_cases hq : q = 0 <;> simp [hq]
        rw [e] at this
        exact this
      · rw [← List.drop_drop, hd]; rfl
  refine halone ws 0 [] ?_ rfl
  have e : (fun p : Nat => if p = 0 then 0 else 0) = fun _ => 0 := by funext p; split <;> rfl
  rw [e]
  exact Raced.opened (fun _ => ws) _ fun _ => Nat.zero_le _

/-- the bytes of a log that is played back alone -/
theorem lastAt_replay (log : List (Nat × Bytes)) (i : Nat) :
    (∀ x, lastAt i (Spec.byteWrites log) = some x → (Spec.replay [] log)[i]? = some x) ∧
    (lastAt i (Spec.byteWrites log) = none → (Spec.replay [] log)[i]? = none ∨ (Spec.replay [] log)[i]? = some 0) := by
  obtain ⟨h1, h2, -⟩ := (alone_raced (Spec.byteWrites log)).finished (fun p => by by_cases hp : p = 0 <;> simp [hp]) 0 ⟨rfl, rfl⟩
  rw [replay_byteWrites] at h1 h2
  constructor
  · intro x hx
    have hlt := h2 i (by rw [hx]; nofun)
    have := h1 i _ (List.getElem?_eq_getElem hlt)
    rw [hx] at this
    rw [List.getElem?_eq_getElem hlt, this]
    rfl
  · intro hn
    rcases hx : (Spec.replay [] log)[i]? with _ | x
    · exact .inl rfl
    · right
      rw [h1 i x hx, hn]
      rfl

/-- when all have finished -/
theorem race_bytes (logs : Nat → List (Nat × Bytes)) (before : Bytes) (schedule : List Nat) (hne : schedule ≠ [])
    (hdone : ∀ p k, (Spec.race (fun p => Spec.byteWrites (logs p)) before schedule).written p = some k → k = (Spec.byteWrites (logs p)).length) :
    ∃ q ∈ schedule, (Spec.replay [] (logs q)).length ≤ (Spec.race (fun p => Spec.byteWrites (logs p)) before schedule).file.length ∧
      (∃ p ∈ schedule, (Spec.race (fun p => Spec.byteWrites (logs p)) before schedule).file.length ≤ (Spec.replay [] (logs p)).length) ∧
      ∀ i x, (Spec.race (fun p => Spec.byteWrites (logs p)) before schedule).file[i]? = some x →
        (∃ p ∈ schedule, (Spec.replay [] (logs p))[i]? = some x) ∨ (x = 0 ∧ (Spec.replay [] (logs q)).length ≤ i) := by
  have hmem := started_mem (fun p => Spec.byteWrites (logs p)) before schedule
  have hinv := Spec.race_inv (fun p => Spec.byteWrites (logs p)) before schedule
  have hstart : ∃ p, (Spec.race (fun p => Spec.byteWrites (logs p)) before schedule).written p ≠ none := by
    cases schedule with
    | nil => exact absurd rfl hne
    | cons p l => exact ⟨p, mem_started _ _ _ _ (List.mem_cons_self ..)⟩
  generalize Spec.race (fun p => Spec.byteWrites (logs p)) before schedule = s at *
  rcases hinv with h | ⟨a, h, h2, q, h3, h4⟩
  · obtain ⟨p, hp⟩ := hstart
    exact absurd (h p) hp
  have hb : ∀ p, s.written p ≠ none → (s.written p).getD 0 = (Spec.byteWrites (logs p)).length := by
    intro p hp
    cases hx : s.written p with
    | none => exact absurd hx hp
    | some k => exact hdone p k hx
  have hseg : ∀ p i x, lastAt i (((Spec.byteWrites (logs p)).take ((s.written p).getD 0)).drop (a p)) = some x →
      s.written p ≠ none ∧ lastAt i (Spec.byteWrites (logs p)) = some x := by
    intro p i x hx
    by_cases hp : s.written p = none
    · rw [hp] at hx
      simp only [Option.getD_none, List.take_zero, List.drop_nil] at hx
      cases hx
    · refine ⟨hp, ?_⟩
      rw [hb p hp, List.take_length] at hx
      conv => lhs; rw [← List.take_append_drop (a p) (Spec.byteWrites (logs p))]
      rw [lastAt_append, hx]
      rfl
  have hq : ((Spec.byteWrites (logs q)).take ((s.written q).getD 0)).drop (a q) = Spec.byteWrites (logs q) := by
    rw [h4, hb q h3, List.take_length]; rfl
  refine ⟨q, hmem q h3, ?_, ?_, ?_⟩
  · -- everything of the last one that has opened the file
    by_cases h0 : (Spec.replay [] (logs q)) = []
    · rw [h0]; exact Nat.zero_le _
    · have htight := (alone_raced (Spec.byteWrites (logs q))).tight
      rw [replay_byteWrites] at htight
      rcases htight with g | ⟨p, g⟩
      · exact absurd g h0
      · have hlast : lastAt ((Spec.replay [] (logs q)).length - 1) (Spec.byteWrites (logs q)) ≠ none := by
          by_cases hp : p = 0
          · simpa [hp] using g
          · simp [hp, lastAt] at g
        have := h.inside q _ (by rw [hq]; exact hlast)
        omega
  · rcases h.tight with g | ⟨p, g⟩
    · exact ⟨q, hmem q h3, by rw [g]; exact Nat.zero_le _⟩
    · cases hx : lastAt (s.file.length - 1) (((Spec.byteWrites (logs p)).take ((s.written p).getD 0)).drop (a p)) with
      | none => exact absurd hx g
      | some x =>
        obtain ⟨g1, g2⟩ := hseg p _ x hx
        have g3 := (lastAt_replay (logs p) _).1 x g2
        refine ⟨p, hmem p g1, ?_⟩
        have : s.file.length - 1 < (Spec.replay [] (logs p)).length := by
          rcases Nat.lt_or_ge (s.file.length - 1) (Spec.replay [] (logs p)).length with h | h
          · exact h
          · rw [List.getElem?_eq_none h] at g3; cases g3
        omega
  · intro i x hx
    rcases h.here i x hx with ⟨p, hp⟩ | ⟨rfl, hn⟩
    · obtain ⟨g1, g2⟩ := hseg p _ x hp
      exact .inl ⟨p, hmem p g1, (lastAt_replay (logs p) i).1 x g2⟩
    · have := hn q
      simp only [hq] at this
      rcases (lastAt_replay (logs q) i).2 this with g | g
      · right
        exact ⟨rfl, by simpa using g⟩
      · exact .inl ⟨q, hmem q h3, g⟩

/-! ### lemmas: the chunks of one, the chunks of the other -/

/-- a process makes the next `n` of its writes -/
theorem race_run (ws : Nat → List (Nat × UInt8)) (p : Nat) (n : Nat) (s : Spec.Race) (k : Nat) (hk : s.written p = some k) (hn : k + n ≤ (ws p).length) :
    ((List.replicate n p).foldl (Spec.Race.step ws) s).file = (((ws p).drop k).take n).foldl (fun d w => overlay d w.1 [w.2]) s.file ∧
    ∀ q, ((List.replicate n p).foldl (Spec.Race.step ws) s).written q = if q = p then some (k + n) else s.written q := by
  induction n generalizing s k with
  | zero => refine ⟨by simp, fun q => ?_⟩
            by_cases hq : q = p
            · rw [if_pos hq, hq]; exact hk
            · rw [if_neg hq]; rfl
  | succ n ih =>
    have hlt : k < (ws p).length := by omega
    obtain ⟨w, hw⟩ : ∃ w, (ws p)[k]? = some w := ⟨_, List.getElem?_eq_getElem hlt⟩
    have hdrop : (ws p).drop k = w :: (ws p).drop (k + 1) := by
      rw [List.drop_eq_getElem_cons hlt]
      rw [List.getElem?_eq_getElem hlt, Option.some.injEq] at hw
      rw [hw]
    have hs : s.step ws p = { file := overlay s.file w.1 [w.2], written := fun q => if q = p then some (k + 1) else s.written q } := by
      unfold Spec.Race.step
      simp only [hk, hw]
    obtain ⟨h1, h2⟩ := ih (s.step ws p) (k + 1) (by rw [hs]; simp) (by omega)
    rw [List.replicate_succ, List.foldl_cons]
    refine ⟨?_, fun q => ?_⟩
    · rw [h1, hs, hdrop, List.take_succ_cons, List.foldl_cons]
    · rw [h2 q]
      by_cases hq : q = p
      · rw [if_pos hq, if_pos hq]; congr 1; omega
      · rw [if_neg hq, if_neg hq, hs]; simp [hq]

/-- the second process writes the beginning, the first one opens the file and writes everything, and the second one goes on -/
theorem race_resumed (logs : Nat → List (Nat × Bytes)) (before : Bytes) (done todo : List (Nat × Bytes)) (h : logs 2 = done ++ todo) :
    ∃ schedule, (Spec.race (fun p => Spec.byteWrites (logs p)) before schedule).file = Spec.replay (Spec.replay [] (logs 1)) todo ∧
      ∀ p, (Spec.race (fun p => Spec.byteWrites (logs p)) before schedule).written p =
        if p = 1 ∨ p = 2 then some (Spec.byteWrites (logs p)).length else none := by
  have hbw : Spec.byteWrites (logs 2) = Spec.byteWrites done ++ Spec.byteWrites todo := by
    rw [h]; simp [Spec.byteWrites]
  generalize hws : (fun p => Spec.byteWrites (logs p)) = ws
  have h1 : ws 1 = Spec.byteWrites (logs 1) := by rw [← hws]
  have h2 : ws 2 = Spec.byteWrites done ++ Spec.byteWrites todo := by rw [← hws]; exact hbw
  refine ⟨2 :: (List.replicate (Spec.byteWrites done).length 2 ++ (1 :: (List.replicate (Spec.byteWrites (logs 1)).length 1 ++
    List.replicate (Spec.byteWrites todo).length 2))), ?_⟩
  unfold Spec.race
  rw [List.foldl_cons, List.foldl_append, List.foldl_cons, List.foldl_append]
  generalize hs0 : Spec.Race.step ws { file := before, written := fun _ => none } 2 = s0
  have e0 : ∀ q, s0.written q = if q = 2 then some 0 else none := by intro q; rw [← hs0]; rfl
  obtain ⟨-, e1⟩ := race_run ws 2 (Spec.byteWrites done).length s0 0 (by rw [e0]; rfl) (by rw [h2, List.length_append]; omega)
  generalize (List.replicate (Spec.byteWrites done).length 2).foldl (Spec.Race.step ws) s0 = s1 at e1
  have e1' : s1.written 1 = none := by rw [e1, if_neg (by decide), e0, if_neg (by decide)]
  generalize hs2 : Spec.Race.step ws s1 1 = s2
  have f2 : s2.file = [] := by rw [← hs2]; unfold Spec.Race.step; rw [e1']
  have e2 : ∀ q, s2.written q = if q = 1 then some 0 else s1.written q := by intro q; rw [← hs2]; unfold Spec.Race.step; rw [e1']
  obtain ⟨f3, e3⟩ := race_run ws 1 (Spec.byteWrites (logs 1)).length s2 0 (by rw [e2]; rfl) (by rw [h1]; omega)
  generalize (List.replicate (Spec.byteWrites (logs 1)).length 1).foldl (Spec.Race.step ws) s2 = s3 at f3 e3
  rw [h1, List.drop_zero, List.take_length, f2, replay_byteWrites] at f3
  have e3' : s3.written 2 = some (Spec.byteWrites done).length := by
    rw [e3, if_neg (by decide), e2, if_neg (by decide), e1, if_pos rfl, Nat.zero_add]
  obtain ⟨f4, e4⟩ := race_run ws 2 (Spec.byteWrites todo).length s3 _ e3' (by rw [h2, List.length_append]; omega)
  constructor
  · rw [f4, h2, List.drop_left, List.take_length, f3, replay_byteWrites]
  · intro p
    rw [e4]
    by_cases hp : p = 2
    · subst hp
      rw [if_pos rfl, if_pos (by simp), hbw, List.length_append]
    · rw [if_neg hp, e3]
      by_cases hp1 : p = 1
      · subst hp1; rw [if_pos rfl, if_pos (by simp), Nat.zero_add]
      · rw [if_neg hp1, e2, if_neg hp1, e1, if_neg hp, e0, if_neg hp, if_neg (by simp [hp, hp1])]

theorem positions_congr {f : Bytes → Bytes} {z : Nat} (hf : ∀ c, (f c).length = z) (s : Nat) (as bs : List Bytes)
    (h : as.map List.length = bs.map List.length) : Spec.positions f s as = Spec.positions f s bs ∧
      (Spec.records f as).length = (Spec.records f bs).length := by
  induction as generalizing s bs with
  | nil => cases bs with
    | nil => exact ⟨rfl, rfl⟩
    | cons b bs => cases h
  | cons x as ih => cases bs with
    | nil => cases h
    | cons b bs =>
      rw [List.map_cons, List.map_cons, List.cons.injEq] at h
      obtain ⟨h1, h2⟩ := ih (s + x.length + (f x).length) bs h.2
      constructor
      · show (s : Int) :: _ = (s : Int) :: _
        rw [h1, hf, hf, h.1]
      · rw [records_cons, records_cons]
        simp only [List.length_append, hf, h.1, h2]

theorem chunksWrites_append (H : Hash) (as bs : List Bytes) : chunksWrites H (as ++ bs) = chunksWrites H as ++ chunksWrites H bs := by
  simp [chunksWrites]

/-- what packing does to the file when it succeeds -/
theorem packBytes_writes {E : Env μ} (L : E.Laws) {data : Bytes} {cs : ChunkSizeArg} {md : Option μ} {a : BloscArgs}
    {b : BloscpackArgs} {m m' : MetadataArgs} {fp : FP} (h : packBytes E data cs md a b m = (.ok m', some fp)) {n c l : Int}
    (hn : calculateNchunks data.length cs = .ok (n, c, l)) :
    ∃ hd sec init tl chs tail, packHeader n c l md a b = .ok hd ∧ SecFor E md m sec m' ∧ offsetsLen hd < 2 ^ 63 ∧ chs.map (·.2) = init ++ [tl] ∧
      (init ++ [tl]).flatten = data ∧ (init.length : Int) = n - 1 ∧ (∀ b ∈ init, (b.length : Int) = c) ∧ (tl.length : Int) = l ∧
      1 ≤ n ∧ ((1 ≤ l ∧ l ≤ c) ∨ (n = 1 ∧ c = 0 ∧ l = 0)) ∧
      (∀ p ∈ chs, E.compress p.2 a = .ok p.1) ∧ fp.data = (packedFile E hd sec chs).bytes E ∧
      fp.log = seqLog 0 (frontWrites E hd sec ++ chunksWrites ((baseFile hd sec chs).impl E) (chs.map (·.1))) ++ tail ∧
      (hd.offsets = true → (∃ raw, encodeOffsets (Spec.positions ((baseFile hd sec chs).impl E).function
        ((baseFile hd sec chs).front E).length (chs.map (·.1))) = .ok raw ∧ tail = [(32 + (optSecBytes E sec).length, raw)])) ∧
      (hd.offsets = false → tail = []) := by
  rcases packBytes_run L data cs md a b m with ⟨e, h0, -⟩ | ⟨n', c', l', h0, ⟨e, -, h1⟩ | ⟨hd, r, fp', init, tl, h1, h2, h3, h4, h5, h6, h7, h8, h9⟩⟩
  · rw [hn] at h0; cases h0
  · rw [h1] at h; cases h
  · rw [hn] at h0
    cases h0
    rw [h2] at h
    cases h
    cases h3 with
    | plain sec _ hs hb chs hi hc ho _ hfp =>
      refine ⟨hd, sec, init, tl, chs, [], h1, hs, hb, hi, h7, h4, h5, h6, h8, h9, hc, ?_, ?_, fun h => ?_, fun _ => rfl⟩
      · rw [hfp, wrote_base_data hs.valid, baseFile_eq_packedFile ho]
      · rw [hfp, List.append_nil]; simp [wrote]
      · rw [ho] at h; cases h
    | full sec _ hs hb chs hi hc ho raw he _ hdd hl hp =>
      exact ⟨hd, sec, init, tl, chs, _, h1, hs, hb, hi, h7, h4, h5, h6, h8, h9, hc, hdd, hl, fun _ => ⟨raw, he, rfl⟩, fun h => by rw [ho] at h; cases h⟩

theorem SecFor.same {E : Env μ} {md : Option μ} {m m1 m2 : MetadataArgs} {s1 s2 : Option (Section μ)} (h1 : SecFor E md m s1 m1) (h2 : SecFor E md m s2 m2) :
    optSecBytes E s1 = optSecBytes E s2 := by
  rcases h1 with ⟨hm, rfl, -⟩ | ⟨S, t, hm, hS, hp, rfl, -⟩
  · rcases h2 with ⟨-, rfl, -⟩ | ⟨S', t', hm', -⟩
    · rfl
    · rw [hm] at hm'; cases hm'
  · rcases h2 with ⟨hm', -⟩ | ⟨S', t', -, hS', hp', rfl, -⟩
    · rw [hm'] at hm; cases hm
    · rw [hS] at hS'
      cases hS'
      show t.bytes E = t'.bytes E
      unfold Section.bytes
      rw [← hp.header, ← hp.body, ← hp.prealloc, hp'.header, hp'.body, hp'.prealloc]
      have := hp.digest.symm.trans hp'.digest
      rw [← hp.body, hp'.body] at this
      rw [this]

/-- chunks of the same length, and a shorter one -/
theorem items_split {c : Nat} (init : List Bytes) (tl : Bytes) (hi : ∀ b ∈ init, b.length = c) (ht : tl.length ≤ c) (k : Nat) :
    ((init ++ [tl]).take k).flatten = (init ++ [tl]).flatten.take (k * c) ∧ ((init ++ [tl]).drop k).flatten = (init ++ [tl]).flatten.drop (k * c) := by
  induction init generalizing k with
  | nil =>
    cases k with
    | zero => simp
    | succ k =>
      have : tl.length ≤ (k + 1) * c := Nat.le_trans ht (Nat.le_mul_of_pos_left c (Nat.succ_pos k))
      simp [List.take_of_length_le this, List.drop_of_length_le this]
  | cons b init ih =>
    have hb : b.length = c := hi b (List.mem_cons_self ..)
    cases k with
    | zero => simp
    | succ k =>
      obtain ⟨h1, h2⟩ := ih (fun b hb => hi b (List.mem_cons_of_mem _ hb)) k
      have e : (k + 1) * c = b.length + k * c := by rw [Nat.succ_mul, hb]; omega
      rw [List.cons_append, List.take_succ_cons, List.drop_succ_cons, List.flatten_cons, List.flatten_cons, h1, h2, e, List.take_append,
        List.drop_append, List.take_of_length_le (l := b) (by omega), List.drop_of_length_le (l := b) (by omega), Nat.add_sub_cancel_left]
      exact ⟨rfl, rfl⟩

theorem items_slice {c : Nat} (init : List Bytes) (tl : Bytes) (hi : ∀ b ∈ init, b.length = c) (ht : tl.length ≤ c) (i : Nat) (d : Bytes)
    (hd : (init ++ [tl])[i]? = some d) : d = ((init ++ [tl]).flatten.drop (i * c)).take c := by
  have hlt : i < (init ++ [tl]).length := by
    rcases Nat.lt_or_ge i (init ++ [tl]).length with h | h
    · exact h
    · rw [List.getElem?_eq_none h] at hd; cases hd
  rw [← (items_split init tl hi ht i).2]
  rw [List.getElem?_eq_getElem hlt, Option.some.injEq] at hd
  rw [List.drop_eq_getElem_cons hlt, hd, List.flatten_cons]
  rcases Nat.lt_or_ge i init.length with h | h
  · have : d.length = c := hi d (by rw [← hd, List.getElem_append_left h]; exact List.getElem_mem h)
    rw [List.take_append_of_le_length (by omega), List.take_of_length_le (by omega)]
  · have hl : i + 1 = (init ++ [tl]).length := by rw [List.length_append, List.length_singleton] at hlt ⊢; omega
    rw [List.drop_of_length_le (by omega), List.flatten_nil, List.append_nil, List.take_of_length_le]
    have hm : d ∈ init ++ [tl] := by rw [← hd]; exact List.getElem_mem hlt
    rcases List.mem_append.1 hm with hm | hm
    · exact Nat.le_of_eq (hi d hm)
    · rw [List.mem_singleton.1 hm]; exact ht

/-! ### C112 -/

/-- C112: when several processes have packed different data to the same file, each in its own time, and their writes are mixed byte by byte: every
byte of the file is the byte at this place in the archive that one of them alone writes, or it is zero and lies behind the end of the archive of the process
that was the last to open the file. The file is at least as long as that archive, and not longer than the longest one. -/
theorem C112_bytes_partial (E : Env μ) (L : E.Laws) (runs : Nat → FP)
    (hruns : ∀ p, ∃ data cs md a b m r, packBytes E data cs md a b m = (r, some (runs p))) (before : Bytes) (schedule : List Nat)
    (hne : schedule ≠ [])
    (hdone : ∀ p k, (Spec.race (fun p => Spec.byteWrites (runs p).log) before schedule).written p = some k → k = (Spec.byteWrites (runs p).log).length) :
    ∃ last ∈ schedule, (runs last).data.length ≤ (Spec.race (fun p => Spec.byteWrites (runs p).log) before schedule).file.length ∧
      (∃ p ∈ schedule, (Spec.race (fun p => Spec.byteWrites (runs p).log) before schedule).file.length ≤ (runs p).data.length) ∧
      ∀ i x, (Spec.race (fun p => Spec.byteWrites (runs p).log) before schedule).file[i]? = some x →
        (∃ p ∈ schedule, (runs p).data[i]? = some x) ∨ (x = 0 ∧ (runs last).data.length ≤ i) := by
  have he : ∀ p, Spec.replay [] (runs p).log = (runs p).data := by
    intro p
    obtain ⟨data, cs, md, a, b, m, r, h⟩ := hruns p
    exact (pack_crash_cases L h).1.symm
  have := race_bytes (fun p => (runs p).log) before schedule hne hdone
  simp only [he] at this
  exact this

/-- C112: if a process opens the file when the others that have opened it are done, and nobody opens it later, it leaves the archive that it writes
alone. -/
theorem C112_one_after_the_other_partial (E : Env μ) (L : E.Laws) (runs : Nat → FP)
    (hruns : ∀ p, ∃ data cs md a b m r, packBytes E data cs md a b m = (r, some (runs p))) (before : Bytes) (earlier later : List Nat) (q : Nat)
    (hearlier : ∀ p ∈ earlier, (Spec.race (fun p => Spec.byteWrites (runs p).log) before earlier).written p = some (Spec.byteWrites (runs p).log).length)
    (hq : q ∉ earlier) (hlater : ∀ p ∈ later, p = q ∨ p ∈ earlier)
    (hdone : (Spec.race (fun p => Spec.byteWrites (runs p).log) before (earlier ++ later)).written q = some (Spec.byteWrites (runs q).log).length) :
    (Spec.race (fun p => Spec.byteWrites (runs p).log) before (earlier ++ later)).file = (runs q).data := by
  obtain ⟨data, cs, md, a, b, m, r, h⟩ := hruns q
  rw [(pack_crash_cases L h).1, ← replay_byteWrites]
  have hq0 : (Spec.race (fun p => Spec.byteWrites (runs p).log) before earlier).written q = none := by
    cases hx : (Spec.race (fun p => Spec.byteWrites (runs p).log) before earlier).written q with
    | none => rfl
    | some k => exact absurd (started_mem _ _ _ q (by rw [hx]; nofun)) hq
  unfold Spec.race at hdone hearlier hq0 ⊢
  rw [List.foldl_append] at hdone ⊢
  generalize List.foldl (Spec.Race.step fun p => Spec.byteWrites (runs p).log) { file := before, written := fun _ => none } earlier = s at *
  generalize hws : (fun p => Spec.byteWrites (runs p).log) = ws at *
  have hwp : ∀ p, Spec.byteWrites (runs p).log = ws p := fun p => by rw [← hws]
  simp only [hwp] at hearlier hdone ⊢
  -- after the others are done
  have key : ∀ (l : List Nat) (s : Spec.Race), (∀ p ∈ l, p = q ∨ p ∈ earlier) → (∀ p ∈ earlier, s.written p = some (ws p).length) →
      (s.written q = none ∨ ∃ k, s.written q = some k ∧ k ≤ (ws q).length ∧ s.file = ((ws q).take k).foldl (fun d w => overlay d w.1 [w.2]) []) →
      (l.foldl (Spec.Race.step ws) s).written q = none ∨ ∃ k, (l.foldl (Spec.Race.step ws) s).written q = some k ∧ k ≤ (ws q).length ∧
        (l.foldl (Spec.Race.step ws) s).file = ((ws q).take k).foldl (fun d w => overlay d w.1 [w.2]) [] := by
    intro l
    induction l with
    | nil => intro s _ _ h; exact h
    | cons p l ih =>
      intro s hl he hs
      rw [List.foldl_cons]
      have hl' : ∀ p ∈ l, p = q ∨ p ∈ earlier := fun p hp => hl p (List.mem_cons_of_mem _ hp)
      have hpe := hl p (List.mem_cons_self ..)
      by_cases hp : p = q
      · subst hp
        refine ih _ hl' ?_ ?_
        · intro p' hp'
          have hne : p' ≠ p := fun h => hq (h ▸ hp')
          unfold Spec.Race.step
          split
          · simp only [if_neg hne]; exact he p' hp'
          · split
            · exact he p' hp'
            · simp only [if_neg hne]; exact he p' hp'
        · right
          rcases hs with hs | ⟨k, k1, k2, k3⟩
          · refine ⟨0, ?_, Nat.zero_le _, ?_⟩ <;> simp [Spec.Race.step, hs]
          · unfold Spec.Race.step
            simp only [k1]
            cases hw : (ws p)[k]? with
            | none => exact ⟨k, k1, k2, k3⟩
            | some w =>
              have hlt : k < (ws p).length := by
                rcases Nat.lt_or_ge k (ws p).length with h | h
                · exact h
                · rw [List.getElem?_eq_none h] at hw; cases hw
              refine ⟨k + 1, by simp, by omega, ?_⟩
              simp only
              rw [List.take_succ, hw, List.foldl_append, ← k3]
              rfl
      · have hpe : p ∈ earlier := hpe.resolve_left hp
        have : s.step ws p = s := by
          unfold Spec.Race.step
          rw [he p hpe]
          simp
        rw [this]
        exact ih s hl' he hs
  rcases key later s hlater hearlier (.inl hq0) with h | ⟨k, k1, k2, k3⟩
  · rw [h] at hdone; cases hdone
  · rw [hdone, Option.some.injEq] at k1
    rw [k3, ← k1, List.take_length]

/-- C112 is violated: if two processes pack data of the same length with the same settings, and their compressed chunks have the same lengths, as with
compression level 0, the file may hold the first `k` chunks of the one and the other chunks of the other one. It is read without an exception, whatever
checksums it has. -/
theorem C112_mixture_violated (E : Env μ) (L : E.Laws) (x y : Bytes) (hlen : x.length = y.length) (cs : ChunkSizeArg) (md : Option μ) (a : BloscArgs)
    (b : BloscpackArgs) (m m₁ m₂ : MetadataArgs) (f₁ f₂ : FP) (h₁ : packBytes E x cs md a b m = (.ok m₁, some f₁))
    (h₂ : packBytes E y cs md a b m = (.ok m₂, some f₂)) (n c l : Int) (hn : calculateNchunks x.length cs = .ok (n, c, l))
    (hsame : ∀ (i : Nat) (u v : Bytes), E.compress ((x.drop (i * c.toNat)).take c.toNat) a = .ok u →
      E.compress ((y.drop (i * c.toNat)).take c.toNat) a = .ok v → u.length = v.length)
    (k : Nat) (hx : x.take (k * c.toNat) ≠ y.take (k * c.toNat)) (hy : x.drop (k * c.toNat) ≠ y.drop (k * c.toNat)) (before : Bytes) :
    ∃ schedule data, (∀ p, (Spec.race (fun p => Spec.byteWrites (if p = 1 then f₁.log else f₂.log)) before schedule).written p =
        if p = 1 then some (Spec.byteWrites f₁.log).length else if p = 2 then some (Spec.byteWrites f₂.log).length else none) ∧
      unpackBytesFromBytes E (Spec.race (fun p => Spec.byteWrites (if p = 1 then f₁.log else f₂.log)) before schedule).file = .ok (data, md) ∧
      data = x.take (k * c.toNat) ++ y.drop (k * c.toNat) ∧ data ≠ x ∧ data ≠ y := by
  obtain ⟨hd, sec, init, tl, chs, tail, a1, a2, a3, a4, a5, a6, a7, a8, a9, a10, a11, a12, a13, a14, a15⟩ := packBytes_writes L h₁ hn
  obtain ⟨hd', sec', init', tl', chs', tail', b1, b2, b3, b4, b5, b6, b7, b8, b9, b10, b11, b12, b13, b14, b15⟩ :=
    packBytes_writes L h₂ (by rw [← hlen]; exact hn)
  rw [a1] at b1
  cases b1
  obtain ⟨g1, g2, g3, g4, g5, g6, g7, g8, g9, g10⟩ := packHeader_ok a1
  have hmax : 0 ≤ hd.max_app_chunks := g1.2.2.2.2.2.2.1.1
  have hsec : optSecBytes E sec = optSecBytes E sec' := a2.same b2
  generalize hH : (baseFile hd sec chs).impl E = H at *
  have hH' : (baseFile hd sec' chs').impl E = H := hH
  rw [hH'] at b13 b14
  have hn1 : (chs.length : Int) = n := by
    have := congrArg List.length a4; rw [List.length_map, List.length_append, List.length_singleton] at this; omega
  have hn2 : (chs'.length : Int) = n := by
    have := congrArg List.length b4; rw [List.length_map, List.length_append, List.length_singleton] at this; omega
  have hpre : (baseFile hd sec chs).Pre E := baseFile_pre L g1 g2 a2.valid (by rw [g4, a2.isSome]) a3 (by omega) a11
  have hsz : ∀ z, (H.function z).length = H.size := by
    rw [← hH]; exact fun z => Hash.size_eq L (File.lookup hpre).2.1 z
  have hc0 : 0 ≤ c ∧ l ≤ c := by omega
  have i1 : ∀ b ∈ init, b.length = c.toNat := fun b hb => by have := a7 b hb; omega
  have i2 : ∀ b ∈ init', b.length = c.toNat := fun b hb => by have := b7 b hb; omega
  have t1 : tl.length ≤ c.toNat := by omega
  have t2 : tl'.length ≤ c.toNat := by omega
  -- the chunks have the same lengths
  have hlens : (chs.map (·.1)).map List.length = (chs'.map (·.1)).map List.length := by
    refine List.ext_getElem (by simp; omega) fun i j1 j2 => ?_
    simp only [List.length_map] at j1 j2
    simp only [List.getElem_map]
    refine hsame i _ _ ?_ ?_
    · have := a11 _ (List.getElem_mem j1)
      rwa [items_slice init tl i1 t1 i (chs[i].2) (by rw [← a4, List.getElem?_map, List.getElem?_eq_getElem j1]; rfl), a5] at this
    · have := b11 _ (List.getElem_mem j2)
      rwa [items_slice init' tl' i2 t2 i (chs'[i].2) (by rw [← b4, List.getElem?_map, List.getElem?_eq_getElem j2]; rfl), b5] at this
  -- the front
  have hfront : ((baseFile hd sec chs).front E).length = ((baseFile hd sec' chs').front E).length := by
    unfold File.front File.secBytes baseFile
    cases sec <;> cases sec' <;> simp_all [optSecBytes]
  have hM : ∃ M : File μ, M.Conforming E ∧ M.metadata = md ∧ M.data = x.take (k * c.toNat) ++ y.drop (k * c.toNat) ∧
      ∃ done todo, f₂.log = done ++ todo ∧ Spec.replay f₁.data todo = M.bytes E := by
    have hmap : (chs.take k ++ chs'.drop k).map (·.2) = (init ++ [tl]).take k ++ (init' ++ [tl']).drop k := by
      rw [List.map_append, List.map_take, List.map_drop, a4, b4]
    have hmem : ∀ p ∈ chs.take k ++ chs'.drop k, E.compress p.2 a = .ok p.1 := by
      intro p hp
      rcases List.mem_append.1 hp with hp | hp
      · exact a11 p (List.mem_of_mem_take hp)
      · exact b11 p (List.mem_of_mem_drop hp)
    have hl : (chs.take k ++ chs'.drop k).length = chs.length := by simp; omega
    have hlens' : ((chs.take k ++ chs'.drop k).map (·.1)).map List.length = (chs.map (·.1)).map List.length := by
      rw [List.map_append, List.map_append, List.map_take, List.map_take, List.map_drop, List.map_drop, ← hlens, List.take_append_drop]
    have hpos : Spec.positions H.function ((baseFile hd sec chs).front E).length ((chs.take k ++ chs'.drop k).map (·.1)) =
        Spec.positions H.function ((baseFile hd sec chs).front E).length (chs.map (·.1)) := (positions_congr hsz _ _ _ hlens').1
    have hfr : (packedFile E hd sec (chs.take k ++ chs'.drop k)).front E = (packedFile E hd sec chs).front E := by
      have e : (packedFile E hd sec (chs.take k ++ chs'.drop k)).offsets = (packedFile E hd sec chs).offsets := by
        unfold packedFile
        simp only [show (baseFile hd sec (chs.take k ++ chs'.drop k)).impl E = H from hH, hH,
          show (baseFile hd sec (chs.take k ++ chs'.drop k)).front E = (baseFile hd sec chs).front E from rfl, hpos]
      unfold File.front
      rw [e]
      rfl
    have hmixed : ∃ init₂ tl₂, (init ++ [tl]).take k ++ (init' ++ [tl']).drop k = init₂ ++ [tl₂] ∧ (∀ b ∈ init₂, (b.length : Int) = c) ∧ (tl₂.length : Int) = l := by
      rcases Nat.lt_or_ge init.length k with hk | hk
      · refine ⟨init, tl, ?_, a7, a8⟩
        rw [List.take_of_length_le (by simp; omega), List.drop_of_length_le (by simp; omega), List.append_nil]
      · refine ⟨init.take k ++ init'.drop k, tl', ?_, ?_, b8⟩
        · rw [List.take_append_of_le_length hk, List.drop_append_of_le_length (by omega), List.append_assoc]
        · intro b hb
          rcases List.mem_append.1 hb with hb | hb
          · exact a7 b (List.mem_of_mem_take hb)
          · exact b7 b (List.mem_of_mem_drop hb)
    obtain ⟨init₂, tl₂, c1, c2, c3⟩ := hmixed
    have hQ : (frontWrites E hd sec' ++ chunksWrites H ((chs'.map (·.1)).take k)).flatten.length =
        ((packedFile E hd sec chs).front E ++ Spec.records H.function ((chs.map (·.1)).take k)).length := by
      rw [List.flatten_append, List.length_append, frontWrites_flatten b2.valid chs', chunksWrites_flatten, List.length_append, ← hfront,
        packedFile_front_length (by omega) hmax]
      congr 1
      refine (positions_congr hsz 0 _ _ ?_).2
      rw [List.map_take, List.map_take, hlens]
    refine ⟨packedFile E hd sec (chs.take k ++ chs'.drop k), ?_, a2.metadata_eq rfl, ?_,
      seqLog 0 (frontWrites E hd sec' ++ chunksWrites H ((chs'.map (·.1)).take k)),
      seqLog (0 + (frontWrites E hd sec' ++ chunksWrites H ((chs'.map (·.1)).take k)).flatten.length) (chunksWrites H ((chs'.map (·.1)).drop k)) ++ tail', ?_, ?_⟩
    · refine packedFile_conforming L g1 g2 a2.valid (by rw [g4, a2.isSome]) a3 (by rw [hl]; omega) hmem (hmap.trans c1)
        (by rw [g7]; exact c2) (by rw [g8]; exact c3) (by rw [g7, g8, g9]; exact a10) ?_
      intro ho
      obtain ⟨raw, hr, -⟩ := a14 ho
      refine ⟨raw, ?_⟩
      rw [show (baseFile hd sec (chs.take k ++ chs'.drop k)).impl E = H from hH,
        show (baseFile hd sec (chs.take k ++ chs'.drop k)).front E = (baseFile hd sec chs).front E from rfl, hpos]
      exact hr
    · show ((chs.take k ++ chs'.drop k).map (·.2)).flatten = _
      rw [hmap, List.flatten_append, (items_split init tl i1 t1 k).1, (items_split init' tl' i2 t2 k).2, a5, b5]
    · rw [b13, ← List.append_assoc, ← seqLog_append, List.append_assoc, ← chunksWrites_append, List.take_append_drop]
    · have hd1 : f₁.data = ((packedFile E hd sec chs).front E ++ Spec.records H.function ((chs.map (·.1)).take k)) ++
          Spec.records H.function ((chs.map (·.1)).drop k) := by
        rw [a12, List.append_assoc, ← records_append, List.take_append_drop]
        unfold File.bytes File.body
        rw [show (packedFile E hd sec chs).impl E = H from hH, show (packedFile E hd sec chs).junk = [] from rfl, List.append_nil]
        rfl
      have hdl : (Spec.records H.function ((chs.map (·.1)).drop k)).length = (Spec.records H.function ((chs'.map (·.1)).drop k)).length := by
        refine (positions_congr hsz 0 _ _ ?_).2
        rw [List.map_drop, List.map_drop, hlens]
      have hb : (packedFile E hd sec (chs.take k ++ chs'.drop k)).bytes E =
          (packedFile E hd sec chs).front E ++ (Spec.records H.function ((chs.map (·.1)).take k) ++ Spec.records H.function ((chs'.map (·.1)).drop k)) := by
        unfold File.bytes File.body
        rw [hfr, show (packedFile E hd sec (chs.take k ++ chs'.drop k)).impl E = H from hH]
        show _ ++ (Spec.records H.function ((chs.take k ++ chs'.drop k).map (·.1)) ++ []) = _
        rw [List.append_nil, List.map_append, List.map_take, List.map_drop, records_append]
      rw [replay_append, hd1, Nat.zero_add, hQ, replay_seqLog_over, chunksWrites_flatten, ← hdl, List.drop_length, List.append_nil, hb, List.append_assoc]
      cases ho : hd.offsets with
      | false => rw [b15 ho]; rfl
      | true =>
        obtain ⟨raw, hr, ht⟩ := a14 ho
        obtain ⟨raw', hr', ht'⟩ := b14 ho
        have hrr : raw' = raw := by
          rw [← hfront, ← (positions_congr hsz _ _ _ hlens).1, hr] at hr'
          exact (Except.ok.inj hr').symm
        rw [ht', hrr, ← hsec]
        have hraw := ((encodeOffsets_iff _ _).1 hr).2
        have hfr' : (packedFile E hd sec chs).front E = (hd.bytes ++ optSecBytes E sec) ++ (raw ++ Spec.int64s (List.replicate hd.max_app_chunks.toNat (-1))) := by
          unfold File.front packedFile
          simp only [ho, if_true, int64s_append]
          rw [hH, ← hraw, List.append_assoc]
          congr 2
        have h32 : 32 + (optSecBytes E sec).length = (hd.bytes ++ optSecBytes E sec).length := by
          rw [List.length_append, hd.bytes_length]
        rw [hfr', h32]
        show overlay _ _ raw = _
        rw [List.append_assoc, overlay_append, List.append_assoc raw, List.drop_left, List.append_assoc]
  obtain ⟨M, m1, m2, m3, done, todo, m4, m5⟩ := hM
  obtain ⟨schedule, e1, e2⟩ := race_resumed (fun p => if p = 1 then f₁.log else f₂.log) before done todo m4
  refine ⟨schedule, M.data, fun p => ?_, ?_, m3, ?_, ?_⟩
  · rw [e2 p]
    by_cases h1 : p = 1
    · subst h1; rfl
    · by_cases h2 : p = 2
      · subst h2; rfl
      · rw [if_neg (by simp [h1, h2]), if_neg h1, if_neg h2]
  · rw [e1]
    simp only [if_true]
    rw [← (pack_crash_cases L h₁).1, m5, unpackBytes_ok (unpackFrom_file L m1.toValid), m2]
  · intro he
    rw [m3] at he
    conv at he => rhs; rw [← List.take_append_drop (k * c.toNat) x]
    exact hy (List.append_cancel_left he).symm
  · intro he
    rw [m3] at he
    conv at he => rhs; rw [← List.take_append_drop (k * c.toNat) y]
    exact hx (List.append_cancel_right he)

/-! ### cases -/

namespace RaceExamples

/-- packing four bytes in two chunks, and four other ones, with a checksum -/
def x : Bytes := [1, 2, 3, 4]
def y : Bytes := [6, 7, 8, 9]
def run (d : Bytes) : Except Err MetadataArgs × Option FP := packBytes Toy.env d (.int 2) none {} { checksum := "adler32", max_app_chunks := .int 1 } {}

example : (run x).1.toBool = true ∧ (run y).1.toBool = true ∧ calculateNchunks x.length (.int 2) = .ok (2, 2, 2) := by decide +kernel
example : x.take (1 * 2) ≠ y.take (1 * 2) ∧ x.drop (1 * 2) ≠ y.drop (1 * 2) := by decide
example : ∀ (d u e v : Bytes), d.length = e.length → Toy.env.compress d {} = .ok u → Toy.env.compress e {} = .ok v → u.length = v.length := by
  have hl : ∀ d u : Bytes, Toy.env.compress d {} = .ok u → u.length = 16 + d.length := by
    intro d u hu
    unfold Toy.env Toy.compress at hu
    simp only at hu
    split at hu
    · cases hu
      simp
      omega
    · cases hu
  intro d u e v h hu hv
  rw [hl d u hu, hl e v hv, h]

end RaceExamples

end Bloscpack
