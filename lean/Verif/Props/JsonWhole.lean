import Verif.Props.JsonText
import Verif.Spec.Growing
/-
The beginning of a JSON object is not a JSON text.
-/
namespace Bloscpack
open Spec

theorem parseValue_object {t : List Char} {v : Json} (h : JsonValue ('{' :: t) v) (f : Nat) (hf : 2 * (t.length + 1) ≤ f) (r : List Char) :
    parseValue f ('{' :: t ++ r) = some (v, r) := by
  cases f with
  | zero => omega
  | succ f =>
    generalize hx : '{' :: t = x at h
    cases h with
    | emptyObj w hw =>
      rw [List.cons_append, parseValue_obj, List.append_assoc, List.singleton_append, skipWs_close hw (by simp)]
      rfl
    | obj w u l d hw h hd =>
      have hlen := congrArg List.length hx
      simp only [List.length_cons, List.length_append] at hlen
      have e : skipWs (w ++ (u ++ '}' :: r)) = u ++ '}' :: r ∧ (u ++ '}' :: r).head? ≠ some '}' := by
        obtain ⟨y, rfl⟩ := h.head
        refine ⟨by rw [List.cons_append, skipWs_close hw (by simp)], ?_⟩
        simp
      rw [List.cons_append, parseValue_obj, List.append_assoc, List.append_assoc, List.singleton_append, e.1, if_neg e.2,
        (parseJson_complete f).2.2 u l r h (by omega), hd.unique (dictOf_dictOfPairs l)]
      rfl
    | nat t v h =>
      obtain ⟨c, u, rfl, h2, -⟩ := h.facts
      injection hx with hx; subst hx
      exact absurd (h2 '{' (by simp)) (by decide)
    | float x d h =>
      obtain ⟨neg, ip, n, fp, ex, z, rfl, hn, -⟩ := h
      obtain ⟨c, u, rfl, h2, -⟩ := hn.facts
      cases neg with
      | true => cases hx
      | false =>
        injection hx with hx; subst hx
        exact absurd (h2 '{' (by simp)) (by decide)
    | str t s h => obtain ⟨u, s', rfl, -⟩ := h; cases hx
    | _ => cases hx

theorem dumpsJson_obj_ends (d : List (PyStr × Json)) : ∃ u, dumpsJson (.obj d) = '{' :: (u ++ ['}']) := by
  refine ⟨_, by rw [dumpsJson]⟩

/-- C98: the beginning of what is written for a dict is refused unless it is all of it. -/
theorem C98_whole (d : List (PyStr × Json)) : OnlyWhole (encodeUtf8 (dumpsJson (.obj d))) loadsJson := by
  intro part x hpre hx
  obtain ⟨s, rfl, hs⟩ := (C98_read _ _).1 hx
  have hasc := dumpsJson_ascii (.obj d)
  generalize hS : dumpsJson (.obj d) = S at *
  -- the beginning of the bytes is the beginning of the text
  have hpart : ∃ q, S = s ++ q := by
    obtain ⟨R, hR⟩ := hpre
    have hn : ∀ (T : List Char) (n : Nat), (∀ c ∈ T, c.toNat < 128) → (encodeUtf8 T).take n = encodeUtf8 (T.take n) := by
      intro T
      induction T with
      | nil => intro n _; simp [encodeUtf8]
      | cons c T ih =>
        intro n hT
        cases n with
        | zero => simp [encodeUtf8]
        | succ n =>
          have h1 : ∃ b, String.utf8EncodeChar c = [b] := by
            have : (String.utf8EncodeChar c).length = 1 := by
              rw [String.length_utf8EncodeChar]
              exact Char.utf8Size_eq_one_iff.2 (by have := hT c (by simp); rw [UInt32.le_iff_toNat_le]; show c.toNat ≤ 127; omega)
            exact List.length_eq_one_iff.1 this
          obtain ⟨b, hb⟩ := h1
          have := ih n (fun c hc => hT c (by simp [hc]))
          unfold encodeUtf8 at this ⊢
          simp only [List.flatMap_cons, hb, List.take_succ_cons, List.singleton_append, this]
    have h1 : encodeUtf8 s = encodeUtf8 (S.take (encodeUtf8 s).length) := by
      rw [← hn S _ hasc, ← hR, List.take_left']
      rfl
    have h2 : s = S.take (encodeUtf8 s).length := by
      have e1 := (decodeUtf8_iff (encodeUtf8 s) s).2 rfl
      rw [(decodeUtf8_iff (encodeUtf8 s) _).2 h1] at e1
      injection e1 with e1
      have := congrArg Array.toList e1
      simpa using this.symm
    refine ⟨S.drop (encodeUtf8 s).length, ?_⟩
    conv => lhs; rw [← List.take_append_drop (encodeUtf8 s).length S, ← h2]
  obtain ⟨q, hq⟩ := hpart
  obtain ⟨w, t, w', rfl, hw, ht, hw'⟩ := hs
  obtain ⟨u, hu⟩ := dumpsJson_obj_ends d
  rw [hS] at hu
  obtain ⟨c, t', rfl, -⟩ := ht.head
  have hw0 : w = [] := by
    cases w with
    | nil => rfl
    | cons a w =>
      rw [hu] at hq
      injection hq with hq
      have := hw a (by simp)
      rw [← hq] at this
      simp at this
  subst hw0
  have hc : c = '{' := by
    rw [hu] at hq
    injection hq with hq
    exact hq.symm
  subst hc
  -- the object is read from the whole text, and nothing but white space may follow it
  have hq' : S = '{' :: t' ++ (w' ++ q) := by rw [hq]; simp
  have hload : ∃ y, loadsText S = .ok y := by
    have := C42_exact (.obj d)
    unfold loadsJson at this
    rw [hS, (decodeUtf8_iff _ S).2 rfl] at this
    exact ⟨_, this⟩
  obtain ⟨y, hy⟩ := hload
  have hsk : skipWs S = S := by rw [hu]; rfl
  have hlen : t'.length + 1 ≤ S.length := by rw [hq']; simp
  have hparse := parseValue_object ht (2 * S.length + 2) (by omega) (w' ++ q)
  rw [← hq'] at hparse
  unfold loadsText at hy
  rw [hsk, hparse] at hy
  simp only at hy
  have hnil : skipWs (w' ++ q) = [] := by
    split at hy
    · assumption
    · cases hy
  have hspace := skipWs_eq_nil.1 hnil
  have hq0 : q = [] := by
    rcases List.eq_nil_or_concat q with h0 | ⟨q', a, rfl⟩
    · exact h0
    · exfalso
      have e1 : S.getLast? = some '}' := by rw [hu, ← List.cons_append, List.getLast?_append]; rfl
      have e2 : S.getLast? = some a := by
        rw [hq', List.concat_eq_append, ← List.append_assoc, ← List.append_assoc, List.getLast?_append]; rfl
      rw [e1] at e2
      injection e2 with e2
      have := hspace a (by simp)
      rw [← e2] at this
      simp at this
  rw [hq, hq0, List.append_nil]

end Bloscpack
