import Verif.Spec.Race
import Verif.Lemmas.Crash
/-
Processes that write the same things to the same file at the same time.
-/
namespace Bloscpack

theorem overlay_one (d : Bytes) (p : Nat) (b : UInt8) (i : Nat) :
    (overlay d p [b])[i]? = if i = p then some b else if i < d.length then d[i]? else if i < p then some 0 else none := by
  unfold overlay
  rw [if_neg (by simp)]
  by_cases h1 : i < p
  · rw [if_neg (by omega), List.append_assoc, List.append_assoc]
    by_cases h2 : i < d.length
    · rw [if_pos h2, List.getElem?_append_left (by rw [List.length_take]; omega), List.getElem?_take, if_pos h1]
    · rw [if_neg h2, if_pos h1, List.getElem?_append_right (by rw [List.length_take]; omega),
        List.getElem?_append_left (by rw [List.length_take, List.length_replicate]; omega), List.getElem?_replicate,
        if_pos (by rw [List.length_take]; omega)]
  · have hl : (d.take p ++ List.replicate (p - d.length) 0).length = p := by simp; omega
    rw [List.append_assoc, List.getElem?_append_right (by omega), hl]
    by_cases h2 : i = p
    · subst h2; simp
    · rw [if_neg h2, List.getElem?_append_right (by simp; omega), List.getElem?_drop]
      simp only [List.length_cons, List.length_nil]
      rw [show p + (0 + 1) + (i - p - (0 + 1)) = i by omega]
      by_cases h3 : i < d.length
      · rw [if_pos h3]
      · rw [if_neg h3, if_neg h1, List.getElem?_eq_none (by omega)]

theorem overlay_one_length (d : Bytes) (p : Nat) (b : UInt8) : (overlay d p [b]).length = max d.length (p + 1) := by
  unfold overlay
  rw [if_neg (by simp)]
  simp
  omega

theorem overlay_cons (d : Bytes) (p : Nat) (b : UInt8) (bs : Bytes) : overlay d p (b :: bs) = overlay (overlay d p [b]) (p + 1) bs := by
  by_cases hbs : bs = []
  · subst hbs; rw [overlay.eq_def _ _ [], if_pos rfl]
  · have hl := overlay_one_length d p b
    rw [overlay.eq_def _ _ bs, if_neg hbs, overlay.eq_def d p (b :: bs), if_neg (by simp), hl]
    have e1 : (overlay d p [b]).take (p + 1) = d.take p ++ List.replicate (p - d.length) 0 ++ [b] := by
      unfold overlay
      rw [if_neg (by simp)]
      rw [List.take_append_of_le_length (by simp; omega), List.take_of_length_le (by simp; omega)]
    have e2 : (overlay d p [b]).drop (p + 1 + bs.length) = d.drop (p + (b :: bs).length) := by
      unfold overlay
      rw [if_neg (by simp)]
      have hl : (d.take p ++ List.replicate (p - d.length) 0 ++ [b]).length = p + 1 := by simp; omega
      rw [List.drop_append, hl, List.drop_of_length_le (by omega), List.nil_append, List.drop_drop]
      congr 1
      simp; omega
    rw [e1, e2, show p + 1 - max d.length (p + 1) = 0 by omega]
    simp

theorem replay_byteWrites (log : List (Nat × Bytes)) (d : Bytes) :
    (Spec.byteWrites log).foldl (fun d w => overlay d w.1 [w.2]) d = Spec.replay d log := by
  have h1 : ∀ (bs : Bytes) (p k : Nat) (d : Bytes),
      ((bs.zipIdx k).map fun x => (p + x.2, x.1)).foldl (fun d (w : Nat × UInt8) => overlay d w.1 [w.2]) d = overlay d (p + k) bs := by
    intro bs
    induction bs with
    | nil => intro p k d; rw [overlay, if_pos rfl]; rfl
    | cons b bs ih =>
      intro p k d
      rw [List.zipIdx_cons, List.map_cons, List.foldl_cons, ih, overlay_cons d (p + k) b bs, Nat.add_assoc]
  unfold Spec.byteWrites
  induction log generalizing d with
  | nil => rfl
  | cons w log ih =>
    rw [List.flatMap_cons, List.foldl_append, ih, h1]
    rfl

/-- the last byte written at a position -/
def lastAt (i : Nat) (ws : List (Nat × UInt8)) : Option UInt8 :=
  ws.foldl (fun r w => if w.1 = i then some w.2 else r) none

theorem lastAt_foldl (i : Nat) (ws : List (Nat × UInt8)) (r : Option UInt8) :
    ws.foldl (fun r w => if w.1 = i then some w.2 else r) r = (lastAt i ws).or r := by
  unfold lastAt
  induction ws generalizing r with
  | nil => simp
  | cons w ws ih =>
    rw [List.foldl_cons, List.foldl_cons, ih, ih (if w.1 = i then some w.2 else none)]
    generalize List.foldl _ none ws = q
    cases q <;> split <;> simp

theorem lastAt_append (i : Nat) (a b : List (Nat × UInt8)) : lastAt i (a ++ b) = (lastAt i b).or (lastAt i a) := by
  rw [lastAt, List.foldl_append, lastAt_foldl]
  rfl

theorem lastAt_single (i : Nat) (w : Nat × UInt8) : lastAt i [w] = if w.1 = i then some w.2 else none := rfl

/-- what is in a file after a race: every process `p` has written `(ws p)[a p], …, (ws p)[b p - 1]` since the file was emptied for the last time -/
structure Raced (ws : Nat → List (Nat × UInt8)) (file : Bytes) (a b : Nat → Nat) : Prop where
  le : ∀ p, b p ≤ (ws p).length
  here : ∀ i x, file[i]? = some x → (∃ p, lastAt i (((ws p).take (b p)).drop (a p)) = some x) ∨ (x = 0 ∧ ∀ p, lastAt i (((ws p).take (b p)).drop (a p)) = none)
  inside : ∀ p i, lastAt i (((ws p).take (b p)).drop (a p)) ≠ none → i < file.length
  tight : file = [] ∨ ∃ p, lastAt (file.length - 1) (((ws p).take (b p)).drop (a p)) ≠ none

/-- a process opens the file -/
theorem Raced.opened (ws : Nat → List (Nat × UInt8)) (b : Nat → Nat) (hb : ∀ p, b p ≤ (ws p).length) : Raced ws [] b b := by
  have h : ∀ p, ((ws p).take (b p)).drop (b p) = [] := fun p => List.drop_of_length_le (by rw [List.length_take]; omega)
  refine ⟨hb, fun i x hx => by simp at hx, fun p i hi => ?_, .inl rfl⟩
  rw [h] at hi
  exact absurd rfl hi

/-- a process writes a byte -/
theorem Raced.wrote {ws : Nat → List (Nat × UInt8)} {file : Bytes} {a b : Nat → Nat} (h : Raced ws file a b) (p : Nat) (w : Nat × UInt8)
    (hw : (ws p)[b p]? = some w) (hab : a p ≤ b p) : Raced ws (overlay file w.1 [w.2]) a (fun q => if q = p then b p + 1 else b q) := by
  have hlt : b p < (ws p).length := by
    rcases Nat.lt_or_ge (b p) (ws p).length with h | h
    · exact h
    · rw [List.getElem?_eq_none h] at hw; cases hw
  have hseg : ((ws p).take (b p + 1)).drop (a p) = ((ws p).take (b p)).drop (a p) ++ [w] := by
    rw [List.take_succ, hw, List.drop_append, show a p - ((ws p).take (b p)).length = 0 by rw [List.length_take]; omega]
    rfl
  have hlast : ∀ i q, lastAt i (((ws q).take (if q = p then b p + 1 else b q)).drop (a q)) =
      if q = p ∧ w.1 = i then some w.2 else lastAt i (((ws q).take (b q)).drop (a q)) := by
    intro i q
    by_cases hq : q = p
    · subst hq
      rw [if_pos rfl, hseg, lastAt_append, lastAt_single]
      by_cases hi : w.1 = i
      · rw [if_pos hi, if_pos ⟨rfl, hi⟩]; rfl
      · rw [if_neg hi, if_neg (fun g => hi g.2)]; rfl
    · rw [if_neg hq, if_neg (fun g => hq g.1)]
  have hlen := overlay_one_length file w.1 w.2
  refine ⟨fun q => ?_, fun i x hx => ?_, fun q i hi => ?_, .inr ?_⟩
  · by_cases hq : q = p
    · simp only [hq, if_true]; omega
    · simp only [hq, if_false]; exact h.le q
  · rw [overlay_one] at hx
    by_cases hi : i = w.1
    · rw [if_pos hi] at hx
      left
      refine ⟨p, ?_⟩
      rw [hlast, if_pos ⟨rfl, hi.symm⟩, hx]
    · rw [if_neg hi] at hx
      have e : ∀ q, lastAt i (((ws q).take (if q = p then b p + 1 else b q)).drop (a q)) = lastAt i (((ws q).take (b q)).drop (a q)) := by
        intro q
        rw [hlast, if_neg (fun g => hi g.2.symm)]
      simp only [e]
      split at hx
      · exact h.here i x hx
      · split at hx
        · cases hx
          right
          refine ⟨rfl, fun q => ?_⟩
          rcases hn : lastAt i (((ws q).take (b q)).drop (a q)) with _ | y
          · rfl
          · exact absurd (h.inside q i (by rw [hn]; nofun)) (by assumption)
        · cases hx
  · rw [hlen]
    rw [hlast] at hi
    split at hi
    · rename_i g; omega
    · have := h.inside q i hi
      omega
  · rw [hlen]
    by_cases hle : file.length ≤ w.1 + 1
    · refine ⟨p, ?_⟩
      rw [hlast, if_pos ⟨rfl, by omega⟩]
      nofun
    · rcases h.tight with h0 | ⟨q, hq⟩
      · rw [h0] at hle; simp at hle
      · refine ⟨q, ?_⟩
        rw [hlast]
        split
        · nofun
        · rw [show max file.length (w.1 + 1) = file.length by omega]
          exact hq

/-- the state of a race: some process that has opened the file has written everything since it was emptied -/
def Spec.Race.Inv (ws : Nat → List (Nat × UInt8)) (s : Spec.Race) : Prop :=
  (∀ p, s.written p = none) ∨
  ∃ a, Raced ws s.file a (fun p => (s.written p).getD 0) ∧ (∀ p, a p ≤ (s.written p).getD 0) ∧ ∃ q, s.written q ≠ none ∧ a q = 0

theorem Spec.Race.Inv.step {ws : Nat → List (Nat × UInt8)} {s : Spec.Race} (h : s.Inv ws) (p : Nat) : (s.step ws p).Inv ws := by
  have hle : ∀ q, (s.written q).getD 0 ≤ (ws q).length := by
    rcases h with h | ⟨a, h, -⟩
    · intro q; rw [h q]; exact Nat.zero_le _
    · exact h.le
  unfold Spec.Race.step
  cases hp : s.written p with
  | none =>
    right
    refine ⟨fun q => if q = p then 0 else (s.written q).getD 0, ?_, ?_, p, ?_, ?_⟩
    · have e : (fun q => ((if q = p then some 0 else s.written q : Option Nat)).getD 0) = fun q => if q = p then 0 else (s.written q).getD 0 := by
        funext q; split <;> rfl
      simp only [e]
      refine Raced.opened ws _ fun q => ?_
      split
      · exact Nat.zero_le _
      · exact hle q
    · intro q
      simp only
      split <;> simp
    · simp
    · simp
  | some k =>
    cases hw : (ws p)[k]? with
    | none => simp only [hw]; exact h
    | some w =>
      simp only [hw]
      rcases h with h | ⟨a, h, h2, q, h3, h4⟩
      · rw [h p] at hp; cases hp
      · right
        refine ⟨a, ?_, ?_, q, ?_, h4⟩
        · have e : (fun q => ((if q = p then some (k + 1) else s.written q : Option Nat)).getD 0) =
              fun q => if q = p then (s.written p).getD 0 + 1 else (s.written q).getD 0 := by
            funext q; rw [hp]; split <;> rfl
          simp only [e]
          exact h.wrote p w (by rw [hp]; exact hw) (h2 p)
        · intro q
          have := h2 q
          simp only
          split
          · rename_i hq; rw [hq, hp] at this; rw [hq]; simp at this ⊢; omega
          · exact this
        · simp only
          split
          · nofun
          · exact h3

theorem Spec.race_inv (ws : Nat → List (Nat × UInt8)) (before : Bytes) (schedule : List Nat) : (Spec.race ws before schedule).Inv ws := by
  unfold Spec.race
  have : ∀ (l : List Nat) (s : Spec.Race), s.Inv ws → (l.foldl (Spec.Race.step ws) s).Inv ws := by
    intro l
    induction l with
    | nil => intro s h; exact h
    | cons p l ih => intro s h; exact ih _ (h.step p)
  exact this schedule _ (.inl fun _ => rfl)

/-- when all have finished, the bytes are those that one process writes last -/
theorem Raced.finished {ws : List (Nat × UInt8)} {file : Bytes} {a b : Nat → Nat} (h : Raced (fun _ => ws) file a b) (hb : ∀ p, a p = b p ∨ b p = ws.length)
    (q : Nat) (hq : a q = 0 ∧ b q = ws.length) :
    (∀ i x, file[i]? = some x → x = (lastAt i ws).getD 0) ∧ (∀ i, lastAt i ws ≠ none → i < file.length) ∧
      (file = [] ∨ lastAt (file.length - 1) ws ≠ none) := by
  have hfull : (ws.take (b q)).drop (a q) = ws := by rw [hq.1, hq.2, List.take_length]; rfl
  have hsuf : ∀ p i x, lastAt i ((ws.take (b p)).drop (a p)) = some x → lastAt i ws = some x := by
    intro p i x hx
    rcases hb p with hp | hp
    · rw [hp, List.drop_of_length_le (by rw [List.length_take]; omega)] at hx
      cases hx
    · rw [hp, List.take_length] at hx
      conv => lhs; rw [← List.take_append_drop (a p) ws]
      rw [lastAt_append, hx]
      rfl
  refine ⟨fun i x hx => ?_, fun i hi => ?_, ?_⟩
  · rcases h.here i x hx with ⟨p, hp⟩ | ⟨rfl, hn⟩
    · rw [hsuf p i x hp]; rfl
    · have := hn q
      rw [hfull] at this
      rw [this]; rfl
  · exact h.inside q i (by rw [hfull]; exact hi)
  · refine h.tight.imp id fun ⟨p, hp⟩ => ?_
    rcases hx : lastAt (file.length - 1) ((ws.take (b p)).drop (a p)) with _ | x
    · exact absurd hx hp
    · rw [hsuf p _ x hx]; nofun

theorem finished_unique {ws : List (Nat × UInt8)} {f g : Bytes}
    (hf : (∀ i x, f[i]? = some x → x = (lastAt i ws).getD 0) ∧ (∀ i, lastAt i ws ≠ none → i < f.length) ∧ (f = [] ∨ lastAt (f.length - 1) ws ≠ none))
    (hg : (∀ i x, g[i]? = some x → x = (lastAt i ws).getD 0) ∧ (∀ i, lastAt i ws ≠ none → i < g.length) ∧ (g = [] ∨ lastAt (g.length - 1) ws ≠ none)) :
    f = g := by
  have hlen : ∀ f g : Bytes, (f = [] ∨ lastAt (f.length - 1) ws ≠ none) → (∀ i, lastAt i ws ≠ none → i < g.length) → f.length ≤ g.length := by
    intro f g h1 h2
    rcases h1 with rfl | h1
    · simp
    · have := h2 _ h1; omega
  have hl : f.length = g.length := Nat.le_antisymm (hlen f g hf.2.2 hg.2.1) (hlen g f hg.2.2 hf.2.1)
  refine List.ext_getElem hl fun i h1 h2 => ?_
  rw [hf.1 i _ (List.getElem?_eq_getElem h1), hg.1 i _ (List.getElem?_eq_getElem h2)]

/-- processes that write the same things leave what one of them alone leaves -/
theorem Spec.race_same (ws : List (Nat × UInt8)) (before : Bytes) (schedule : List Nat) (hne : schedule ≠ [])
    (hdone : ∀ p k, (Spec.race (fun _ => ws) before schedule).written p = some k → k = ws.length) :
    (Spec.race (fun _ => ws) before schedule).file = ws.foldl (fun d w => overlay d w.1 [w.2]) [] := by
  have hstart : ∃ p, (Spec.race (fun _ => ws) before schedule).written p ≠ none := by
    cases schedule with
    | nil => exact absurd rfl hne
    | cons p l =>
      refine ⟨p, ?_⟩
      unfold Spec.race
      rw [List.foldl_cons]
      have : ∀ (l : List Nat) (s : Spec.Race), s.written p ≠ none → (l.foldl (Spec.Race.step (fun _ => ws)) s).written p ≠ none := by
        intro l
        induction l with
        | nil => intro s h; exact h
        | cons q l ih =>
          intro s h
          refine ih _ ?_
          unfold Spec.Race.step
          split
          · simp only; split
            · nofun
            · exact h
          · split
            · exact h
            · simp only; split
              · nofun
              · exact h
      refine this l _ ?_
      simp [Spec.Race.step]
  -- one process alone
  have halone : ∀ (l : List (Nat × UInt8)) (n : Nat) (f : Bytes), Raced (fun _ => ws) f (fun _ => 0) (fun p => if p = 0 then n else 0) → ws.drop n = l →
      Raced (fun _ => ws) (l.foldl (fun d w => overlay d w.1 [w.2]) f) (fun _ => 0) (fun p => if p = 0 then ws.length else 0) := by
    intro l
    induction l with
    | nil =>
      intro n f h hd
      have : n = ws.length := by
        have h1 := h.le 0
        have h2 := congrArg List.length hd
        simp at h1 h2
        omega
      rw [← this]
      exact h
    | cons w l ih =>
      intro n f h hd
      have hw : ws[n]? = some w := by
        have := congrArg List.head? hd
        rw [List.head?_drop] at this
        exact this
      rw [List.foldl_cons]
      refine ih (n + 1) _ ?_ ?_
      · have := h.wrote 0 w (by simpa using hw) (by simp)
        have e : (fun q : Nat => if q = 0 then (if (0 : Nat) = 0 then n else 0) + 1 else if q = 0 then n else 0) = fun q => if q = 0 then n + 1 else 0 := by
          funext q; by_cases hq : q = 0 <;> simp [hq]
        rw [e] at this
        exact this
      · rw [← List.drop_drop, hd]; rfl
  have h0 := halone ws 0 [] (by
    have e : (fun p : Nat => if p = 0 then 0 else 0) = fun _ => 0 := by funext p; split <;> rfl
    rw [e]
    exact Raced.opened (fun _ => ws) _ fun _ => Nat.zero_le _) rfl
  rcases Spec.race_inv (fun _ => ws) before schedule with h | ⟨a, h, h2, q, h3, h4⟩
  · obtain ⟨p, hp⟩ := hstart
    exact absurd (h p) hp
  · refine finished_unique (h.finished (fun p => ?_) q ⟨h4, ?_⟩) (h0.finished (fun p => ?_) 0 ⟨rfl, rfl⟩)
    · cases hp : (Spec.race (fun _ => ws) before schedule).written p with
      | none =>
        left
        have := h2 p
        rw [hp] at this
        exact Nat.le_antisymm this (Nat.zero_le _)
      | some k => right; exact hdone p k hp
    · cases hp : (Spec.race (fun _ => ws) before schedule).written q with
      | none => exact absurd hp h3
      | some k => exact hdone q k hp
    · by_cases hp : p = 0
      · right; simp [hp]
      · left; simp [hp]

end Bloscpack
