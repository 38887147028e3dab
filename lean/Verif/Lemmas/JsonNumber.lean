import Verif.Lemmas.Float
import Verif.Props.NumberText
import Verif.Spec.JsonNumber
/-!
Reading and writing the numbers of JSON texts.
-/
namespace Bloscpack

open Spec

theorem jsonDigit_iff (c : Char) (d : Nat) : "0123456789".toList[d]? = some c ↔ c.isDigit = true ∧ d = c.toNat - 48 := by
  constructor
  · intro h
    obtain ⟨hd, rfl⟩ := List.getElem?_eq_some_iff.mp h
    exact (by decide : ∀ d : Fin 10, ("0123456789".toList[d.val]'d.isLt).isDigit = true ∧ d.val = ("0123456789".toList[d.val]'d.isLt).toNat - 48) ⟨d, hd⟩
  · rintro ⟨h, rfl⟩
    have hc : c = Char.ofNat c.toNat := (Char.ofNat_toNat c).symm
    have h1 : 48 ≤ c.toNat ∧ c.toNat ≤ 57 := by
      rw [Char.isDigit_iff_toNat] at h
      exact h
    have := (by decide : ∀ d : Fin 10, "0123456789".toList[d.val]? = some (Char.ofNat (48 + d.val))) ⟨c.toNat - 48, by omega⟩
    rw [this]; simp only
    rw [show 48 + (c.toNat - 48) = c.toNat by omega, ← hc]

/-! ### integers -/

theorem Spec.JsonNat.facts {t : List Char} {v : Nat} (h : JsonNat t v) :
    ∃ c u, t = c :: u ∧ (∀ x ∈ t, x.isDigit = true) ∧ t.foldl (fun v c => 10 * v + (c.toNat - 48)) 0 = v ∧ (c = '0' → u = []) := by
  induction h with
  | digit c d hd =>
    obtain ⟨h1, rfl⟩ := (jsonDigit_iff c d).mp hd
    exact ⟨c, [], rfl, by simpa using h1, by simp, fun _ => rfl⟩
  | more t v x d _ hv hd ih =>
    obtain ⟨h1, rfl⟩ := (jsonDigit_iff x d).mp hd
    obtain ⟨c, u, rfl, h2, h3, h4⟩ := ih
    refine ⟨c, u ++ [x], rfl, ?_, ?_, ?_⟩
    · intro y hy
      rcases List.mem_append.mp hy with hy | hy
      · exact h2 y hy
      · rw [List.mem_singleton.mp hy]; exact h1
    · rw [List.foldl_append, h3]; rfl
    · rintro rfl
      rw [h4 rfl] at h3
      exact absurd h3.symm hv

theorem jsonNat_extend (u : List Char) : ∀ {t : List Char} {v : Nat}, JsonNat t v → v ≠ 0 → (∀ x ∈ u, x.isDigit = true) →
    JsonNat (t ++ u) (u.foldl (fun v c => 10 * v + (c.toNat - 48)) v) := by
  induction u with
  | nil => intro t v h _ _; rw [List.append_nil]; exact h
  | cons x u ih =>
    intro t v h hv hu
    have := ih (.more t v x _ h hv ((jsonDigit_iff x _).mpr ⟨hu x (by simp), rfl⟩)) (by omega) (fun y hy => hu y (by simp [hy]))
    rw [List.append_assoc] at this
    exact this

theorem parseNat_complete {t : List Char} {v : Nat} (h : JsonNat t v) {r : List Char} (hr : ∀ c ∈ r.head?, c.isDigit = false) : parseNat (t ++ r) = some (v, r) := by
  obtain ⟨c, u, rfl, h2, h3, h4⟩ := h.facts
  rw [List.cons_append, parseNat]
  by_cases hc : c = '0'
  · rw [if_pos hc, h4 hc]
    rw [h4 hc, hc] at h3
    rw [← h3]
    rfl
  · rw [if_neg hc, if_pos (h2 c (by simp)), ← List.cons_append, takeDigits_all _ _ h2 hr, h3]

theorem parseNat_sound {s : List Char} {v : Nat} {r : List Char} (h : parseNat s = some (v, r)) : ∃ t, s = t ++ r ∧ JsonNat t v := by
  cases s with
  | nil => cases h
  | cons c s =>
    rw [parseNat] at h
    split at h
    · rename_i hc
      cases h
      exact ⟨[c], rfl, .digit c 0 ((jsonDigit_iff c 0).mpr (by rw [hc]; decide))⟩
    · rename_i hc
      split at h
      · rename_i hd
        obtain ⟨ds, h1, h2, h3, h4, -⟩ := takeDigits_split (c :: s) 0 0
        cases h
        cases ds with
        | nil =>
          exfalso
          simp [takeDigits, hd] at h4
          obtain ⟨ds, h1, h2, h3, h4', -⟩ := takeDigits_split s (c.toNat - 48) 1
          omega
        | cons x u =>
          have hx : x = c := by injection h1 with h1 _; exact h1.symm
          subst hx
          refine ⟨x :: u, h1, ?_⟩
          rw [h3]
          refine jsonNat_extend u (t := [x]) (v := 10 * 0 + (x.toNat - 48)) (.digit x _ ((jsonDigit_iff x _).mpr ⟨hd, by omega⟩)) ?_ (fun y hy => h2 y (by simp [hy]))
          rw [Char.isDigit_iff_toNat] at hd
          have e : '0'.toNat = 48 := rfl
          rw [e] at hd
          intro h0
          apply hc
          have : x.toNat = 48 := by omega
          rw [← Char.ofNat_toNat x, this]
      · cases h

/-! ### numbers -/

/-- what may follow a number without becoming part of it -/
def Stops (rest : List Char) : Prop := ∀ c ∈ rest.head?, c.isDigit = false ∧ c ≠ '.' ∧ c ≠ 'e' ∧ c ≠ 'E'

theorem takeMinus_digit {c : Char} (h : c.isDigit = true) (r : List Char) : takeMinus (c :: r) = (false, c :: r) := by
  unfold takeMinus
  split
  · rename_i h1
    injection h1 with h1 _
    exact absurd h1 (digit_ne h).1
  · rfl

theorem takeMinus_split (s : List Char) : s = (if (takeMinus s).1 then ['-'] else []) ++ (takeMinus s).2 := by
  unfold takeMinus
  split <;> rfl

theorem takeMinus_nat {neg : Bool} {t : List Char} {v : Nat} (h : JsonNat t v) (r : List Char) :
    takeMinus ((if neg then ['-'] else []) ++ (t ++ r)) = (neg, t ++ r) := by
  cases neg with
  | true => rfl
  | false =>
    obtain ⟨c, u, rfl, h2, -⟩ := h.facts
    exact takeMinus_digit (h2 c (by simp)) _

theorem numberExponent_sound {s : List Char} {x : Int} {r : List Char} (h : numberExponent s = some (x, r)) :
    ∃ ex, s = ex ++ r ∧ ExpText ex x ∧ ex ≠ [] := by
  cases s with
  | nil => cases h
  | cons c cs =>
    rw [numberExponent] at h
    split at h
    · rename_i hc
      split at h
      · cases h
      · rename_i hk
        cases h
        obtain ⟨sign, h1, h2⟩ := takeSign_split cs
        obtain ⟨ds, h3, h4, h5, h6, -⟩ := takeDigits_split (takeSign cs).2 0 0
        refine ⟨c :: (sign ++ ds), ?_, .inr ⟨c, (takeSign cs).1, sign, ds, hc, h1, ⟨?_, h4⟩, rfl, ?_⟩, by simp⟩
        · rw [List.cons_append, List.append_assoc, ← h3, ← h2]
        · rintro rfl; exact hk h6
        · rw [h5]; rfl
    · cases h

theorem numberExponent_complete {ex : List Char} {x : Int} (h : ExpText ex x) (hne : ex ≠ []) {r : List Char}
    (hr : ∀ c ∈ r.head?, c.isDigit = false) : numberExponent (ex ++ r) = some (x, r) := by
  rcases h with ⟨h, -⟩ | ⟨e, neg, sign, ds, he, h1, ⟨h2, h3⟩, rfl, rfl⟩
  · exact absurd h hne
  · have hhead : ∀ c ∈ (ds ++ r).head?, c ≠ '-' ∧ c ≠ '+' := by
      cases ds with
      | nil => exact absurd rfl h2
      | cons d ds =>
        intro c hc
        cases hc
        have := digit_ne (h3 d (by simp)); exact ⟨this.1, this.2.1⟩
    have hd := takeDigits_all ds r h3 hr 0 0
    rw [Nat.zero_add] at hd
    rw [List.cons_append, List.append_assoc, numberExponent, if_pos he, takeSign_of h1 hhead]
    simp only [hd]
    rw [if_neg]
    · rfl
    · have := List.length_pos_iff.2 h2
      omega

theorem numberExponent_none {r : List Char} (h : ∀ c ∈ r.head?, c ≠ 'e' ∧ c ≠ 'E') : numberExponent r = none := by
  cases r with
  | nil => rfl
  | cons c r =>
    rw [numberExponent, if_neg]
    rintro (h1 | h1)
    · exact (h c rfl).1 h1
    · exact (h c rfl).2 h1

theorem numberFraction_sound (n : Nat) (s : List Char) : ∃ fp, s = fractionText fp ++ (numberFraction n s).2.2 ∧ (∀ ds, fp = some ds → Digits ds) ∧
    (numberFraction n s).1 = (fp.getD []).foldl (fun v c => 10 * v + (c.toNat - 48)) n ∧ (numberFraction n s).2.1 = (fp.getD []).length := by
  unfold numberFraction
  split
  · rename_i r
    obtain ⟨ds, h1, h2, h3, h4, -⟩ := takeDigits_split r n 0
    split
    · exact ⟨none, rfl, by simp, rfl, rfl⟩
    · rename_i hk
      refine ⟨some ds, by rw [fractionText, List.cons_append, ← h1], ?_, h3, by rw [h4, Nat.zero_add]; rfl⟩
      intro ds' he
      cases he
      refine ⟨?_, h2⟩
      rintro rfl
      exact hk h4
  · exact ⟨none, rfl, by simp, rfl, rfl⟩

theorem numberFraction_complete (n : Nat) {fp : Option (List Char)} (hfp : ∀ ds, fp = some ds → Digits ds) {r : List Char}
    (hr : ∀ c ∈ r.head?, c.isDigit = false ∧ c ≠ '.') :
    numberFraction n (fractionText fp ++ r) = ((fp.getD []).foldl (fun v c => 10 * v + (c.toNat - 48)) n, (fp.getD []).length, r) := by
  cases fp with
  | none =>
    show numberFraction n r = _
    unfold numberFraction
    split
    · exact absurd rfl (hr '.' rfl).2
    · rfl
  | some ds =>
    obtain ⟨h1, h2⟩ := hfp ds rfl
    have hd := takeDigits_all ds r h2 (fun c hc => (hr c hc).1) n 0
    show numberFraction n ('.' :: (ds ++ r)) = _
    rw [numberFraction, hd, if_neg, Nat.zero_add]
    · rfl
    · have := List.length_pos_iff.2 h1
      simp only
      omega

theorem expText_follow {ex : List Char} {x : Int} (h : ExpText ex x) {r : List Char} (hr : Stops r) :
    ∀ c ∈ (ex ++ r).head?, c.isDigit = false ∧ c ≠ '.' := by
  rcases h with ⟨rfl, -⟩ | ⟨e, neg, sign, ds, he, h1, h2, rfl, rfl⟩
  · intro c hc
    exact ⟨(hr c hc).1, (hr c hc).2.1⟩
  · intro c hc
    cases hc
    rcases he with rfl | rfl <;> decide

theorem scanNumber_float {t : List Char} {d : Double} (h : JsonFloat t d) {r : List Char} (hr : Stops r) :
    scanNumber (t ++ r) = some (.inr d, r) := by
  obtain ⟨neg, ip, n, fp, ex, x, rfl, h1, h2, h3, h4, h5⟩ := h
  have hfollow := expText_follow h3 hr
  have hfrac := numberFraction_complete n h2 hfollow
  have hnat : parseNat (ip ++ (fractionText fp ++ (ex ++ r))) = some (n, fractionText fp ++ (ex ++ r)) := by
    refine parseNat_complete h1 ?_
    cases fp with
    | none => exact fun c hc => (hfollow c hc).1
    | some ds =>
      intro c hc
      cases hc
      decide
  have hval : (fp.getD []).foldl (fun v c => 10 * v + (c.toNat - 48)) n = decimal (ip ++ fp.getD []) := by
    obtain ⟨c, u, -, -, h6, -⟩ := h1.facts
    rw [decimal, List.foldl_append, h6]
  rw [hval] at hfrac
  have e : ((if neg then ['-'] else []) ++ (ip ++ (fractionText fp ++ ex))) ++ r =
      (if neg then ['-'] else []) ++ (ip ++ (fractionText fp ++ (ex ++ r))) := by simp only [List.append_assoc]
  rw [e]
  unfold scanNumber
  rw [takeMinus_nat h1]
  simp only [hnat, hfrac]
  rw [← (doubleOf_iff _ _ _ _).2 h5]
  by_cases hex : ex = []
  · subst hex
    rw [List.nil_append, numberExponent_none (fun c hc => (hr c hc).2.2)]
    rcases h3 with ⟨-, rfl⟩ | ⟨_, _, _, _, _, _, _, h, _⟩
    · cases fp with
      | none => simp at h4
      | some ds =>
        have := List.length_pos_iff.2 (h2 ds rfl).1
        simp only [Option.getD_some]
        rw [if_neg (by omega), Int.zero_sub]
    · cases h
  · rw [numberExponent_complete h3 hex (fun c hc => (hr c hc).1)]

theorem scanNumber_int {t : List Char} {v : Nat} (h : JsonNat t v) (neg : Bool) {r : List Char} (hr : Stops r) :
    scanNumber ((if neg then ['-'] else []) ++ (t ++ r)) = some (.inl (signed neg v), r) := by
  have hfrac := numberFraction_complete v (fp := none) (by simp) (r := r) (fun c hc => ⟨(hr c hc).1, (hr c hc).2.1⟩)
  rw [show fractionText none ++ r = r from rfl] at hfrac
  unfold scanNumber
  rw [takeMinus_nat h]
  simp only [parseNat_complete h (fun c hc => (hr c hc).1), hfrac, numberExponent_none (fun c hc => (hr c hc).2.2)]
  rfl

theorem scanNumber_sound {s : List Char} {x : Int ⊕ Double} {r : List Char} (h : scanNumber s = some (x, r)) :
    ∃ t, s = t ++ r ∧ ((∃ neg u v, t = (if neg then ['-'] else []) ++ u ∧ JsonNat u v ∧ x = .inl (signed neg v)) ∨ ∃ d, JsonFloat t d ∧ x = .inr d) := by
  unfold scanNumber at h
  split at h
  · cases h
  · rename_i n r' hp
    obtain ⟨ip, h1, h2⟩ := parseNat_sound hp
    obtain ⟨fp, h3, h4, h5, h6⟩ := numberFraction_sound n r'
    have hs := takeMinus_split s
    have hval : (numberFraction n r').1 = decimal (ip ++ fp.getD []) := by
      obtain ⟨c, u, -, -, h7, -⟩ := h2.facts
      rw [h5, decimal, List.foldl_append, h7]
    split at h
    · rename_i y r'' he
      cases h
      obtain ⟨ex, h7, h8, h9⟩ := numberExponent_sound he
      refine ⟨(if (takeMinus s).1 then ['-'] else []) ++ (ip ++ (fractionText fp ++ ex)), ?_, .inr ⟨_, ⟨(takeMinus s).1, ip, n, fp, ex, y, rfl, h2, h4, h8,
        .inr h9, (doubleOf_iff _ _ _ _).1 ?_⟩, rfl⟩⟩
      · rw [List.append_assoc, List.append_assoc, List.append_assoc, ← h7, ← h3, ← h1, ← hs]
      · rw [hval, h6]
    · rename_i he
      split at h
      · rename_i hk
        cases h
        exact ⟨(if (takeMinus s).1 then ['-'] else []) ++ ip, by rw [List.append_assoc, ← h1, ← hs], .inl ⟨(takeMinus s).1, ip, n, rfl, h2, rfl⟩⟩
      · rename_i hk
        cases h
        refine ⟨(if (takeMinus s).1 then ['-'] else []) ++ (ip ++ (fractionText fp ++ [])), ?_, .inr ⟨_, ⟨(takeMinus s).1, ip, n, fp, [], 0, rfl, h2, h4, .inl ⟨rfl, rfl⟩,
          .inl ?_, (doubleOf_iff _ _ _ _).1 ?_⟩, rfl⟩⟩
        · rw [List.append_nil, List.append_assoc, List.append_assoc, ← h3, ← h1, ← hs]
        · rintro rfl
          exact hk h6
        · rw [hval, h6, Int.zero_sub]

end Bloscpack
