import Verif.Props.SharedRewrite
import Verif.Props.Concurrent
/-
C110: several processes rewrite the metadata of one archive at the same time.
-/
namespace Bloscpack
variable {μ : Type}

/-! ### lemmas -/

/-- writes inside a part of a file change nothing else; the first 32 bytes of the part are always one of the headers written -/
theorem replay_sections {P : MetadataHeader → Prop} {A R : Bytes} {n : Nat} {log : List (Nat × Bytes)}
    (hw : ∀ w ∈ log, A.length + 32 ≤ w.1 ∧ w.1 + w.2.length ≤ A.length + 32 + n ∨ ∃ h, P h ∧ w = (A.length, h.bytes))
    (h0 : MetadataHeader) (hp : P h0) (T : Bytes) (hT : T.length = n) :
    ∃ h T', P h ∧ T'.length = n ∧ Spec.replay (A ++ (h0.bytes ++ T) ++ R) log = A ++ (h.bytes ++ T') ++ R := by
  induction log generalizing h0 T with
  | nil => exact ⟨h0, T, hp, hT, rfl⟩
  | cons w ws ih =>
    rw [replay_cons]
    have h32 := h0.bytes_length
    have hws := fun v hv => hw v (List.mem_cons_of_mem w hv)
    rcases hw w (by simp) with ⟨h1, h2⟩ | ⟨h, h1, rfl⟩
    · obtain ⟨X, hX, hX'⟩ : ∃ X, X.length = n ∧ overlay (A ++ (h0.bytes ++ T) ++ R) w.1 w.2 = A ++ (h0.bytes ++ X) ++ R := by
        have e1 : A ++ (h0.bytes ++ T) ++ R =
            (A ++ h0.bytes ++ T.take (w.1 - (A.length + 32))) ++ (T.drop (w.1 - (A.length + 32)) ++ R) := by
          conv => lhs; rw [← List.take_append_drop (w.1 - (A.length + 32)) T]
          simp only [List.append_assoc]
        have e2 : w.1 = (A ++ h0.bytes ++ T.take (w.1 - (A.length + 32))).length := by
          simp only [List.length_append, List.length_take]; omega
        refine ⟨T.take (w.1 - (A.length + 32)) ++ (w.2 ++ (T.drop (w.1 - (A.length + 32))).drop w.2.length), ?_, ?_⟩
        · simp only [List.length_append, List.length_take, List.length_drop]; omega
        · have := overlay_mid (A ++ h0.bytes ++ T.take (w.1 - (A.length + 32))) (T.drop (w.1 - (A.length + 32))) R w.2
            (by rw [List.length_drop]; omega)
          rw [← e1, ← e2] at this
          rw [this]
          simp only [List.append_assoc]
      rw [hX']
      exact ih hws h0 hp X hX
    · have := overlay_mid A h0.bytes (T ++ R) h.bytes (by rw [h32, h.bytes_length]; exact Nat.le_refl _)
      rw [List.drop_of_length_le (by rw [h32, h.bytes_length]; exact Nat.le_refl _)] at this
      have e : A ++ (h0.bytes ++ T) ++ R = A ++ (h0.bytes ++ (T ++ R)) := by simp only [List.append_assoc]
      rw [e]
      simp only
      rw [this]
      have := ih hws h h1 T hT
      simpa only [List.append_assoc, List.append_nil, List.nil_append] using this

/-- unpacking an archive whose metadata section begins with a fine header: whatever else is in the section, an error before anything comes out,
or the data -/
theorem unpackFrom_section {E : Env μ} (L : E.Laws) {F : File μ} (hv : F.Valid E) {s s' : Section μ} (hs : F.sec = some s) (hv' : s'.Valid E)
    (hlen' : (s'.bytes E).length = (s.bytes E).length) (T' d : Bytes) (hT' : 32 + T'.length = (s.bytes E).length)
    (hdd : d = F.header.bytes ++ (s'.header.bytes ++ (T' ++ (F.offsets ++ (F.body E ++ F.junk))))) :
    (∃ e, unpackFrom E d = (.error e, [])) ∨ ∃ m, unpackFrom E d = (.ok m, F.data) := by
  have h32 := F.header.bytes_length
  have hs32 := s'.header.bytes_length
  have hsb : F.secBytes E = s.bytes E := by simp [File.secBytes, hs]
  have hfl : (F.front E).length = 32 + (F.secBytes E).length + F.offsets.length := by
    simp [File.front, BloscpackHeader.bytes_length, Nat.add_assoc]
  rw [← unpackShared_alone E d d.length (Nat.le_refl _)]
  refine unpackShared_section L hv hs hv' hlen' ?_ ?_ ?_ ?_ _
  · intro j hj
    show d[0 + j]? = _
    rw [Nat.zero_add, hdd, List.getElem?_append_left hj]
  · intro j hj
    show d[32 + j]? = _
    rw [hdd, List.getElem?_append_right (by omega), h32, Nat.add_sub_cancel_left, List.getElem?_append_left hj]
  · intro k i hi
    rw [hsb] at hi
    have : i < d.length := by rw [hdd]; simp only [List.length_append]; omega
    show (d[i]?).isSome
    rw [List.getElem?_eq_getElem this]; rfl
  · intro k j hj
    show d[(F.front E).length + j]? = _
    rw [hdd, show F.header.bytes ++ (s'.header.bytes ++ (T' ++ (F.offsets ++ (F.body E ++ F.junk)))) =
      (F.header.bytes ++ (s'.header.bytes ++ T') ++ F.offsets) ++ (F.body E ++ F.junk) by simp only [List.append_assoc],
      List.getElem?_append_right (by simp only [List.length_append]; rw [hfl, hsb]; omega),
      show (F.front E).length + j - (F.header.bytes ++ (s'.header.bytes ++ T') ++ F.offsets).length = j by
        simp only [List.length_append]; rw [hfl, hsb]; omega, List.getElem?_append_left hj]

/-- writes that some rewrite of the metadata makes -/
theorem rewrites_inside {E : Env μ} (L : E.Laws) {F : File μ} (hc : F.Conforming E) {log : List (Nat × Bytes)}
    (hlog : ∀ w ∈ log, ∃ (md : Option μ) (x : RewriteArgs) (r : Except Err Unit) (fp : FP),
      rewriteMetadata E md x { data := F.bytes E } = (r, fp) ∧ w ∈ fp.log) :
    log = [] ∨ ∃ s, F.sec = some s ∧ ∀ w ∈ log,
      (64 ≤ w.1 ∧ w.1 + w.2.length ≤ 32 + (s.bytes E).length ∨ ∃ h, (∃ s' : Section μ, s'.Valid E ∧ (s'.bytes E).length = (s.bytes E).length ∧
        s'.header = h) ∧ w = (32, h.bytes)) := by
  cases hs : F.sec with
  | none =>
    left
    refine List.eq_nil_iff_forall_not_mem.2 fun w hw => ?_
    obtain ⟨md, x, r, fp, hrun, hm⟩ := hlog w hw
    rcases rewrite_run L hc md x [] r fp hrun with ⟨e, -, -, hl, -⟩ | ⟨s0, s', g1, -⟩
    · rw [hl] at hm; simp at hm
    · rw [hs] at g1; cases g1
  | some s =>
    refine .inr ⟨s, rfl, fun w hw => ?_⟩
    obtain ⟨md, x, r, fp, hrun, hm⟩ := hlog w hw
    rcases rewrite_run L hc md x [] r fp hrun with ⟨e, -, -, hl, -⟩ | ⟨s0, s', g1, g2, -, g4, -, -, -, hl, -⟩
    · rw [hl] at hm; simp at hm
    rw [hs] at g1
    cases g1
    obtain ⟨rest, e2⟩ : ∃ rest, secWrites E s' = s'.header.bytes :: rest := ⟨_, rfl⟩
    have hf := secWrites_flatten g2
    rw [hl, List.nil_append, e2, seqLog, List.mem_cons] at hm
    rw [e2, List.flatten_cons] at hf
    have hfl := congrArg List.length hf
    rw [List.length_append, MetadataHeader.bytes_length, g4] at hfl
    rcases hm with rfl | hm
    · exact .inr ⟨s'.header, ⟨s', g2, g4, rfl⟩, rfl⟩
    · left
      have := seqLog_inside _ _ w hm
      rw [MetadataHeader.bytes_length] at this
      omega

/-! ### C110 -/

/-- C110: any number of processes rewrite the metadata of one archive at the same time, all having read it before any of them writes. Whatever
part of their writes has been done, in whatever order: nothing outside the metadata section has changed, and unpacking the archive either
fails before anything comes out, or gives exactly the data. -/
theorem C110_data (E : Env μ) (L : E.Laws) (F : File μ) (hc : F.Conforming E) (log : List (Nat × Bytes))
    (hlog : ∀ w ∈ log, ∃ (md : Option μ) (x : RewriteArgs) (r : Except Err Unit) (fp : FP),
      rewriteMetadata E md x { data := F.bytes E } = (r, fp) ∧ w ∈ fp.log) :
    let d := Spec.replay (F.bytes E) log
    d.length = (F.bytes E).length ∧ d.take 32 = (F.bytes E).take 32 ∧
      d.drop (32 + (F.secBytes E).length) = (F.bytes E).drop (32 + (F.secBytes E).length) ∧
      ((∃ e, unpackFrom E d = (.error e, [])) ∨ ∃ m, unpackFrom E d = (.ok m, F.data)) := by
  intro d
  have h32 := F.header.bytes_length
  have hb : F.bytes E = F.header.bytes ++ (F.secBytes E ++ (F.offsets ++ (F.body E ++ F.junk))) := by simp [File.bytes, File.front]
  rcases rewrites_inside L hc hlog with hnil | ⟨s, hs, hw⟩
  · have hd : d = F.bytes E := by show Spec.replay _ log = _; rw [hnil]; rfl
    rw [hd]
    exact ⟨rfl, rfl, rfl, .inr ⟨_, unpackFrom_file L hc.toValid⟩⟩
  have hsb : F.secBytes E = s.bytes E := by simp [File.secBytes, hs]
  obtain ⟨T, hT⟩ : ∃ T, s.bytes E = s.header.bytes ++ T := ⟨_, rfl⟩
  have hsl : (s.bytes E).length = 32 + T.length := by rw [hT, List.length_append, MetadataHeader.bytes_length]
  obtain ⟨h, T', ⟨s', hv', hlen', rfl⟩, hT', hd⟩ := replay_sections
    (P := fun h => ∃ s' : Section μ, s'.Valid E ∧ (s'.bytes E).length = (s.bytes E).length ∧ s'.header = h)
    (A := F.header.bytes) (R := F.offsets ++ (F.body E ++ F.junk)) (n := T.length) (log := log)
    (fun w hm => (hw w hm).imp (fun h => by omega) (fun h => by rwa [h32]))
    s.header ⟨s, hc.sec_ok s hs, rfl, rfl⟩ T rfl
  rw [← hT, ← hsb, List.append_assoc, ← hb] at hd
  have hdd : d = F.header.bytes ++ (s'.header.bytes ++ (T' ++ (F.offsets ++ (F.body E ++ F.junk)))) := by
    show Spec.replay _ log = _
    rw [hd]; simp only [List.append_assoc]
  have hs32 := s'.header.bytes_length
  refine ⟨?_, ?_, ?_, unpackFrom_section L hc.toValid hs hv' hlen' T' d (by omega) hdd⟩
  · rw [hdd, hb, hsb]; simp only [List.length_append]; omega
  · rw [hdd, hb, ← h32, List.take_left, List.take_left]
  · rw [show 32 + (F.secBytes E).length = (F.header.bytes ++ (s'.header.bytes ++ T')).length by
      simp only [List.length_append]; rw [hsb]; omega]
    conv => rhs; rw [show (F.header.bytes ++ (s'.header.bytes ++ T')).length = (F.header.bytes ++ F.secBytes E).length by
      simp only [List.length_append]; rw [hsb]; omega]
    rw [hdd, hb, show F.header.bytes ++ (s'.header.bytes ++ (T' ++ (F.offsets ++ (F.body E ++ F.junk)))) =
      (F.header.bytes ++ (s'.header.bytes ++ T')) ++ (F.offsets ++ (F.body E ++ F.junk)) by simp only [List.append_assoc], List.drop_left,
      ← List.append_assoc F.header.bytes (F.secBytes E), List.drop_left]

/-- C110: meanwhile another process appends to the archive, and finishes. Then unpacking fails before anything comes out, or gives all of the
data, old and new. -/
theorem C110_append (E : Env μ) (L : E.Laws) (F : File μ) (hc : F.Conforming E) (hnn : F.NoNull)
    (new : Bytes) (args : AppendArgs) (k : Int) (fpA : FP)
    (hA : appendFp E { data := new } new.length args { data := F.bytes E } = (.ok k, fpA))
    (logR : List (Nat × Bytes))
    (hlog : ∀ w ∈ logR, ∃ (md : Option μ) (x : RewriteArgs) (r : Except Err Unit) (fp : FP),
      rewriteMetadata E md x { data := F.bytes E } = (r, fp) ∧ w ∈ fp.log)
    (log : List (Nat × Bytes)) (hi : Spec.Interleaved fpA.log logR log) :
    (∃ e, unpackFrom E (Spec.replay (F.bytes E) log) = (.error e, [])) ∨
      ∃ m, unpackFrom E (Spec.replay (F.bytes E) log) = (.ok m, F.data ++ new) := by
  obtain ⟨init, p, hch, hw⟩ := append_writes L hc hnn hA
  obtain ⟨-, G, g1, g2, -, g4, -, -, -, -, -, -, g5, -⟩ := C13_append E L F hc hnn new args k fpA hA
  have hAd := (C27_writes E (F.bytes E) new args _ fpA hA).1
  have h32 := F.header.bytes_length
  rcases rewrites_inside L hc hlog with rfl | ⟨s, hs, hwR⟩
  · right
    have : log = fpA.log := by
      clear hw hAd hA
      generalize fpA.log = la at hi
      generalize hb : ([] : List (Nat × Bytes)) = lb at hi
      induction hi with
      | done => rfl
      | left v h ih => rw [ih hb]
      | right v h ih => cases hb
    rw [this, ← hAd, g1, unpackFrom_file L g2.toValid, g4]
    exact ⟨_, rfl⟩
  have hsb : F.secBytes E = s.bytes E := by simp [File.secBytes, hs]
  have hGs : G.secBytes E = s.bytes E := by simp [File.secBytes, g5, hs]
  have hb : F.bytes E = F.header.bytes ++ (s.bytes E ++ (F.offsets ++ (F.body E ++ F.junk))) := by simp [File.bytes, File.front, hsb]
  have hGb : G.bytes E = G.header.bytes ++ (s.bytes E ++ (G.offsets ++ (G.body E ++ G.junk))) := by simp [File.bytes, File.front, hGs]
  have hsl : (s.bytes E).length = 32 + (s.body ++ (List.replicate s.prealloc 0 ++ (s.impl E).function s.body)).length := by
    rw [Section.bytes, List.length_append, MetadataHeader.bytes_length]
  have hinR : ∀ w ∈ logR, 32 ≤ w.1 ∧ w.1 + w.2.length ≤ 32 + (s.bytes E).length := by
    intro w hm
    rcases hwR w hm with h | ⟨h, -, rfl⟩
    · omega
    · have := h.bytes_length
      simp only; omega
  obtain ⟨A', S', R', l1, l2, l3, l4, l5⟩ := interleaved_apart hi (A := F.header.bytes) (S := s.bytes E)
    (R := F.offsets ++ (F.body E ++ F.junk))
    (fun w hm => by
      rcases (hw w hm).1 with ⟨h1, h2⟩ | ⟨h1, -⟩ | h1
      · left; omega
      · right; rw [h1, hsb, h32]; exact Nat.le_refl _
      · right
        refine Nat.le_trans ?_ h1
        simp [headPart, File.front, hsb])
    (fun w hm => by rw [h32]; exact hinR w hm)
  have e1 := l3 (s.bytes E) rfl
  rw [← hb, ← hAd, g1, hGb] at e1
  obtain ⟨rfl, e0⟩ := List.append_inj e1 (by rw [l1, BloscpackHeader.bytes_length, BloscpackHeader.bytes_length])
  obtain rfl := List.append_cancel_left e0
  have e2 := l4 F.header.bytes [] rfl
  obtain ⟨h, T', ⟨s', hv', hlen', rfl⟩, hT', hd⟩ := replay_sections
    (P := fun h => ∃ s' : Section μ, s'.Valid E ∧ (s'.bytes E).length = (s.bytes E).length ∧ s'.header = h)
    (A := F.header.bytes) (R := []) (n := (s.body ++ (List.replicate s.prealloc 0 ++ (s.impl E).function s.body)).length) (log := logR)
    (fun w hm => (hwR w hm).imp (fun h => by omega) (fun h => by rwa [h32]))
    s.header ⟨s, hc.sec_ok s hs, rfl, rfl⟩ _ rfl
  have e3 : S' = s'.header.bytes ++ T' := by
    have : F.header.bytes ++ (s.header.bytes ++ (s.body ++ (List.replicate s.prealloc 0 ++ (s.impl E).function s.body))) ++ [] =
      F.header.bytes ++ (s.bytes E ++ []) := by simp [Section.bytes]
    rw [this, e2] at hd
    simpa using hd
  rw [hb, l5, e3, ← g4]
  exact unpackFrom_section L g2.toValid (g5.trans hs) hv' hlen' T' _ (by omega) (by simp only [List.append_assoc])

/-- writes, complete or not, inside a part of a file change nothing else -/
theorem crashed_part {A S R d : Bytes} {log : List (Nat × Bytes)} (hw : ∀ w ∈ log, A.length ≤ w.1 ∧ w.1 + w.2.length ≤ A.length + S.length)
    (h : Spec.Crashed (A ++ (S ++ R)) log d) : ∃ S' : Bytes, S'.length = S.length ∧ d = A ++ (S' ++ R) := by
  have hrep : ∀ (l : List (Nat × Bytes)), (∀ w ∈ l, A.length ≤ w.1 ∧ w.1 + w.2.length ≤ A.length + S.length) →
      ∃ S' : Bytes, S'.length = S.length ∧ Spec.replay (A ++ (S ++ R)) l = A ++ (S' ++ R) := by
    intro l
    clear h hw
    induction l generalizing S with
    | nil => exact fun _ => ⟨S, rfl, rfl⟩
    | cons w ws ih =>
      intro hl
      obtain ⟨S1, h1, h2⟩ := overlay_inside (hl w (by simp))
      obtain ⟨S', h3, h4⟩ := ih (S := S1) (fun v hv => by rw [h1]; exact hl v (by simp [hv]))
      refine ⟨S', h3.trans h1, ?_⟩
      rw [replay_cons, h2 A R rfl, h4]
  rcases h with rfl | ⟨done, p, bs, todo, t, h1, h2⟩
  · exact ⟨S, rfl, rfl⟩
  · have := hrep (done ++ [(p, bs.take t)]) (by
      intro w hm
      rcases List.mem_append.1 hm with hm | hm
      · exact hw w (by rw [h1]; simp [hm])
      · rw [List.mem_singleton] at hm
        subst hm
        have := hw (p, bs) (by rw [h1]; simp)
        simp only [List.length_take] at this ⊢
        omega)
    rw [replay_append, replay_cons, replay_nil] at this
    rw [h2]
    exact this

/-- C110: an archive that is unpacked while any number of processes rewrite its metadata: either unpacking fails before anything comes out, or
all of the data come out, exactly. -/
theorem C110_read (E : Env μ) (L : E.Laws) (F : File μ) (hc : F.Conforming E) (log : List (Nat × Bytes))
    (hlog : ∀ w ∈ log, ∃ (md : Option μ) (x : RewriteArgs) (r : Except Err Unit) (fp : FP),
      rewriteMetadata E md x { data := F.bytes E } = (r, fp) ∧ w ∈ fp.log)
    (view : Nat → Nat → Option UInt8) (hseen : Spec.SeenFrom 1 32 (F.bytes E) log view) (b : Nat) :
    (∃ e, unpackShared E { view := view, bound := b } = (.error e, [])) ∨
      ∃ m, unpackShared E { view := view, bound := b } = (.ok m, F.data) := by
  obtain ⟨⟨done, todo, hsplit, hhead⟩, hbytes⟩ := hseen
  have h32 := F.header.bytes_length
  have hb : F.bytes E = F.header.bytes ++ (F.secBytes E ++ (F.offsets ++ (F.body E ++ F.junk))) := by simp [File.bytes, File.front]
  have hfl : (F.front E).length = 32 + (F.secBytes E).length + F.offsets.length := by
    simp [File.front, BloscpackHeader.bytes_length, Nat.add_assoc]
  rcases rewrites_inside L hc hlog with hnil | ⟨s, hs, hw⟩
  · have hv : ∀ k i, view k i = (F.bytes E)[i]? := by
      intro k i
      obtain ⟨d', h1, h2⟩ := hbytes k i
      rw [hnil] at h1
      rcases h1 with rfl | ⟨_, _, _, _, _, hx, -⟩
      · exact h2
      · simp at hx
    right
    refine ⟨F.metadata, unpackShared_all L hc.toValid ?_ ?_ ?_ ?_ b⟩
    · intro j hj
      rw [Nat.zero_add, hv, hb, List.getElem?_append_left hj]
    · intro k j hj
      rw [hv, hb, List.getElem?_append_right (by omega), h32, Nat.add_sub_cancel_left, List.getElem?_append_left hj]
    · intro k i _ hi
      rw [hv, List.getElem?_eq_getElem (by rw [hb]; simp only [List.length_append]; omega)]; rfl
    · intro k j hj
      rw [hv, show F.bytes E = F.front E ++ (F.body E ++ F.junk) by simp [File.bytes],
        List.getElem?_append_right (by omega), Nat.add_sub_cancel_left, List.getElem?_append_left hj]
  have hsb : F.secBytes E = s.bytes E := by simp [File.secBytes, hs]
  obtain ⟨T, hT⟩ : ∃ T, s.bytes E = s.header.bytes ++ T := ⟨_, rfl⟩
  have hsl : (s.bytes E).length = 32 + T.length := by rw [hT, List.length_append, MetadataHeader.bytes_length]
  have hin : ∀ w ∈ log, F.header.bytes.length ≤ w.1 ∧ w.1 + w.2.length ≤ F.header.bytes.length + (F.secBytes E).length := by
    intro w hm
    rcases hw w hm with h | ⟨h, -, rfl⟩
    · rw [hsb]; omega
    · have := h.bytes_length
      rw [hsb]; simp only; omega
  have hsees : ∀ k i, ∃ S' : Bytes, S'.length = (F.secBytes E).length ∧
      view k i = (F.header.bytes ++ (S' ++ (F.offsets ++ (F.body E ++ F.junk))))[i]? := by
    intro k i
    obtain ⟨d', h1, h2⟩ := hbytes k i
    rw [hb] at h1
    obtain ⟨S', h3, h4⟩ := crashed_part hin h1
    exact ⟨S', h3, by rw [h2, h4]⟩
  obtain ⟨h, T', ⟨s', hv', hlen', rfl⟩, hT', hd⟩ := replay_sections
    (P := fun h => ∃ s' : Section μ, s'.Valid E ∧ (s'.bytes E).length = (s.bytes E).length ∧ s'.header = h)
    (A := F.header.bytes) (R := F.offsets ++ (F.body E ++ F.junk)) (n := T.length) (log := done)
    (fun w hm => (hw w (by rw [hsplit]; simp [hm])).imp (fun h => by omega) (fun h => by rwa [h32]))
    s.header ⟨s, hc.sec_ok s hs, rfl, rfl⟩ T rfl
  rw [← hT, ← hsb, List.append_assoc, ← hb] at hd
  have hs32 := s'.header.bytes_length
  refine unpackShared_section L hc.toValid hs hv' hlen' ?_ ?_ ?_ ?_ _
  · intro j hj
    obtain ⟨S', h1, h2⟩ := hsees 0 (0 + j)
    rw [h2, Nat.zero_add, List.getElem?_append_left hj]
  · intro j hj
    rw [hhead _ (by omega) (by omega), hd, List.append_assoc, List.getElem?_append_right (by omega), h32, Nat.add_sub_cancel_left,
      List.append_assoc, List.getElem?_append_left hj]
  · intro k i hi
    obtain ⟨S', h1, h2⟩ := hsees k i
    rw [h2, List.getElem?_eq_getElem (by simp only [List.length_append]; omega)]; rfl
  · intro k j hj
    obtain ⟨S', h1, h2⟩ := hsees k ((F.front E).length + j)
    rw [h2, List.getElem?_append_right (by omega), List.getElem?_append_right (by omega), List.getElem?_append_right (by omega),
      List.getElem?_append_left (by omega)]
    congr 1
    omega

/-! ### examples -/

/-- The hypotheses of C110 and `C110_append`: two rewrites and an append succeed, all on the same archive, and there is something to mix. -/
example : (packBytesToBytes Toy.env [1, 2, 3] (.int 2) (some 5) {} { max_app_chunks := .int 2 }
      { max_meta_size := .int 12 }).toOption.map (fun out =>
    let a := (rewriteMetadata Toy.env (some 6) {} ({ data := out } : FP))
    let b := (rewriteMetadata Toy.env (some 7) {} ({ data := out } : FP))
    let c := appendFp Toy.env { data := [4, 5] } 2 {} { data := out }
    let log := c.2.log.take 3 ++ a.2.log.take 4 ++ c.2.log.drop 3 ++ b.2.log ++ a.2.log.drop 4
    let log' := a.2.log.take 1 ++ c.2.log.take 3 ++ b.2.log ++ c.2.log.drop 3 ++ a.2.log.drop 1
    ([a.1.toBool, b.1.toBool, c.1.toBool], [log, log'].map fun l =>
      let r := unpackFrom Toy.env (Spec.replay out l)
      (r.1.toOption, r.2))) =
    some ([true, true, true], [(none, []), (some (some 6), [1, 2, 3, 4, 5])]) := by
  decide +kernel

/-- Two processes rewrite the metadata of one archive. Where one after the other writes, the metadata are those of the second. Where the
header of the section is from the one and the rest from the other, they are still those of one of the two, because the lengths are the
same; where the bodies are from the one and the digest from the other, unpacking fails. -/
example : (packBytesToBytes Toy.env [1, 2, 3] (.int 2) (some 5) {} { max_app_chunks := .int 2 }
      { max_meta_size := .int 12 }).toOption.map (fun out =>
    let a := (rewriteMetadata Toy.env (some 6) {} ({ data := out } : FP)).2.log
    let b := (rewriteMetadata Toy.env (some 7) {} ({ data := out } : FP)).2.log
    ([a.length, b.length], [a ++ b, b ++ a, a.take 1 ++ b ++ a.drop 1, a.take 2 ++ b.take 1 ++ a.drop 2 ++ b.drop 1,
        a.take 2 ++ b.take 10 ++ a.drop 2 ++ b.drop 11].map fun l =>
      let r := unpackFrom Toy.env (Spec.replay out l)
      (r.1.toOption, r.2))) =
    some ([11, 11], [(some (some 7), [1, 2, 3]), (some (some 6), [1, 2, 3]), (some (some 6), [1, 2, 3]), (some (some 7), [1, 2, 3]),
      (none, [])]) := by
  decide +kernel

/-- Reading while two processes rewrite the metadata: the header of the section is seen after the first of two numbers of writes, everything
else after the second. -/
example : (packBytesToBytes Toy.env [1, 2, 3] (.int 2) (some 5) {} { max_app_chunks := .int 2 }
      { max_meta_size := .int 12 }).toOption.map (fun out =>
    let a := (rewriteMetadata Toy.env (some 6) {} ({ data := out } : FP)).2.log
    let b := (rewriteMetadata Toy.env (some 7) {} ({ data := out } : FP)).2.log
    let log := a.take 1 ++ b ++ a.drop 1
    [(0, 0), (0, 12), (1, 22), (13, 14), (22, 0)].map fun p =>
      let r := unpackShared Toy.env
        { view := fun k i => if k = 1 then (Spec.replay out (log.take p.1))[i]? else (Spec.replay out (log.take p.2))[i]? }
      (r.1.toOption, r.2)) =
    some [(some (some 5), [1, 2, 3]), (some (some 7), [1, 2, 3]), (some (some 6), [1, 2, 3]), (none, []), (some (some 5), [1, 2, 3])] := by
  decide +kernel

end Bloscpack
