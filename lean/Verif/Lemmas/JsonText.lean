import Verif.Props.Json
import Verif.Props.NumberText
import Verif.Spec.JsonText
/-!
`json.loads` accepts exactly the JSON texts.
-/
namespace Bloscpack

open Spec

/-! ### digits -/

theorem hexValue_iff (c : Char) (d : Nat) : hexValue c = some d ↔ JsonHex c d := by
  constructor
  · intro h
    have hc : c = Char.ofNat c.toNat := (Char.ofNat_toNat c).symm
    unfold hexValue at h
    split at h
    · rename_i h1
      cases h
      have := (by decide : ∀ d : Fin 10, "0123456789abcdef".toList[d.val]? = some (Char.ofNat (48 + d.val))) ⟨c.toNat - 48, by omega⟩
      left; rw [this]; simp only
      rw [show 48 + (c.toNat - 48) = c.toNat by omega, ← hc]
    split at h
    · rename_i h1
      cases h
      have := (by decide : ∀ d : Fin 6, "0123456789abcdef".toList[10 + d.val]? = some (Char.ofNat (97 + d.val))) ⟨c.toNat - 97, by omega⟩
      left
      rw [show 10 + (⟨c.toNat - 97, by omega⟩ : Fin 6).val = c.toNat - 87 by simp only; omega] at this
      rw [this]; simp only
      rw [show 97 + (c.toNat - 97) = c.toNat by omega, ← hc]
    split at h
    · rename_i h1
      cases h
      have := (by decide : ∀ d : Fin 6, "0123456789ABCDEF".toList[10 + d.val]? = some (Char.ofNat (65 + d.val))) ⟨c.toNat - 65, by omega⟩
      right
      rw [show 10 + (⟨c.toNat - 65, by omega⟩ : Fin 6).val = c.toNat - 55 by simp only; omega] at this
      rw [this]; simp only
      rw [show 65 + (c.toNat - 65) = c.toNat by omega, ← hc]
    · cases h
  · rintro (h | h)
    · obtain ⟨hd, rfl⟩ := List.getElem?_eq_some_iff.mp h
      exact (by decide : ∀ d : Fin 16, hexValue ("0123456789abcdef".toList[d.val]'d.isLt) = some d.val) ⟨d, hd⟩
    · obtain ⟨hd, rfl⟩ := List.getElem?_eq_some_iff.mp h
      exact (by decide : ∀ d : Fin 16, hexValue ("0123456789ABCDEF".toList[d.val]'d.isLt) = some d.val) ⟨d, hd⟩

/-! ### numbers -/

theorem parseNumber_complete {t : List Char} {v : Nat} (h : JsonNat t v) {r : List Char} (hr : Stops r) :
    parseNumber (t ++ r) = some (.int v, r) ∧ parseNumber ('-' :: (t ++ r)) = some (.int (-v), r) := by
  have h1 := scanNumber_int h false hr
  have h2 := scanNumber_int h true hr
  rw [if_neg (by decide), List.nil_append] at h1
  rw [if_pos rfl, List.singleton_append] at h2
  unfold parseNumber
  rw [h1, h2]
  exact ⟨rfl, rfl⟩

theorem parseNumber_sound {s : List Char} {x : Json} {r : List Char} (h : parseNumber s = some (x, r)) : ∃ t, s = t ++ r ∧ JsonValue t x := by
  unfold parseNumber at h
  split at h
  · rename_i i r' hs
    cases h
    obtain ⟨t, h1, ⟨neg, u, v, h2, h3, h4⟩ | ⟨d, -, h4⟩⟩ := scanNumber_sound hs
    · cases h4
      refine ⟨t, h1, ?_⟩
      rw [h2]
      cases neg with
      | true => exact .neg u v h3
      | false => exact .nat u v h3
    · cases h4
  · rename_i d r' hs
    cases h
    obtain ⟨t, h1, ⟨neg, u, v, h2, h3, h4⟩ | ⟨d, h3, h4⟩⟩ := scanNumber_sound hs
    · cases h4
    · cases h4
      exact ⟨t, h1, .float t _ h3⟩
  · cases h

/-! ### strings -/

theorem parseHex4_iff (s : List Char) (n : Nat) (r : List Char) : parseHex4 s = some (n, r) ↔
    ∃ a b c d i j k l, s = a :: b :: c :: d :: r ∧ JsonHex a i ∧ JsonHex b j ∧ JsonHex c k ∧ JsonHex d l ∧ n = 4096 * i + 256 * j + 16 * k + l := by
  constructor
  · intro h
    unfold parseHex4 at h
    split at h
    · split at h
      · rename_i a b c d r' _ _ _ _ i j k l hi hj hk hl
        cases h
        exact ⟨a, b, c, d, i, j, k, l, rfl, (hexValue_iff _ _).mp hi, (hexValue_iff _ _).mp hj, (hexValue_iff _ _).mp hk, (hexValue_iff _ _).mp hl, rfl⟩
      · cases h
    · cases h
  · rintro ⟨a, b, c, d, i, j, k, l, rfl, hi, hj, hk, hl, rfl⟩
    rw [parseHex4, (hexValue_iff _ _).mpr hi, (hexValue_iff _ _).mpr hj, (hexValue_iff _ _).mpr hk, (hexValue_iff _ _).mpr hl]

theorem jsonHex_lt {c : Char} {d : Nat} (h : JsonHex c d) : d < 16 := by
  rcases h with h | h
  · obtain ⟨hd, -⟩ := List.getElem?_eq_some_iff.mp h
    exact hd
  · obtain ⟨hd, -⟩ := List.getElem?_eq_some_iff.mp h
    exact hd

/-- a low surrogate is an escape -/
theorem parseLow_iff (s : List Char) (n : Nat) (r : List Char) : parseLow s = some (n, r) ↔ ∃ e, s = e ++ r ∧ JsonChar e n ∧ isLow n = true := by
  constructor
  · intro h
    unfold parseLow at h
    split at h
    · rename_i t
      split at h
      · rename_i l r' hp
        split at h
        · rename_i hl
          cases h
          obtain ⟨a, b, c, d, i, j, k, l, rfl, hi, hj, hk, hl', rfl⟩ := (parseHex4_iff _ _ _).mp hp
          exact ⟨['\\', 'u', a, b, c, d], rfl, .unicode a b c d i j k l hi hj hk hl', hl⟩
        · cases h
      · cases h
    · cases h
  · rintro ⟨e, rfl, he, hl⟩
    rw [isLow_iff] at hl
    cases he with
    | plain c _ _ _ =>
      exfalso
      have := c.valid
      have e : c.toNat = c.val.toNat := rfl
      rcases this with h | h <;> omega
    | short c n h =>
      exfalso
      simp only [List.mem_cons, Prod.mk.injEq, List.not_mem_nil, or_false] at h
      omega
    | unicode a b c d i j k l hi hj hk hl' =>
      have := (parseHex4_iff ([a, b, c, d] ++ r) _ r).mpr ⟨a, b, c, d, i, j, k, l, rfl, hi, hj, hk, hl', rfl⟩
      show parseLow ('\\' :: 'u' :: ([a, b, c, d] ++ r)) = _
      rw [parseLow, this]
      simp only [(isLow_iff _).mpr hl, if_true]

theorem parseLow_token {e : List Char} {n : Nat} (h : JsonChar e n) (hn : isLow n = false) (t : List Char) : parseLow (e ++ t) = none := by
  cases h with
  | plain c h1 h2 h3 => exact parseLow_ne_bs c h2 t
  | short c n h =>
    apply parseLow_ne_u
    rintro rfl
    simp at h
  | unicode a b c d i j k l hi hj hk hl =>
    have := (parseHex4_iff ([a, b, c, d] ++ t) _ t).mpr ⟨a, b, c, d, i, j, k, l, rfl, hi, hj, hk, hl, rfl⟩
    show parseLow ('\\' :: 'u' :: ([a, b, c, d] ++ t)) = _
    rw [parseLow, this]
    simp only [hn, Bool.false_eq_true, if_false]

theorem jsonChar_lt {e : List Char} {n : Nat} (h : JsonChar e n) : n < 1114112 := by
  cases h with
  | plain c => have := c.valid; have e : c.toNat = c.val.toNat := rfl; rcases this with h | h <;> omega
  | short c n h => simp only [List.mem_cons, Prod.mk.injEq, List.not_mem_nil, or_false] at h; omega
  | unicode a b c d i j k l hi hj hk hl => have := jsonHex_lt hi; have := jsonHex_lt hj; have := jsonHex_lt hk; have := jsonHex_lt hl; omega

theorem val_ofNat {n : Nat} (h : n < 1114112) : (Fin.ofNat 1114112 n).val = n := Nat.mod_eq_of_lt h

/-- a character that is not joined with the following one -/
theorem scanString_token {e : List Char} {n : Nat} (h : JsonChar e n) (f : Nat) (t : List Char) (ht : isHigh n = true → parseLow t = none) :
    scanString (f + 1) (e ++ t) = (scanString f t).map (fun y => (chr n :: y.1, y.2)) := by
  cases h with
  | plain c h1 h2 h3 => rw [List.singleton_append, scanString_cons, if_neg h1, if_neg h2, if_neg (by omega)]
  | short c n h =>
    apply scanString_escape (r := c :: t)
    simp only [List.mem_cons, Prod.mk.injEq, List.not_mem_nil, or_false] at h
    rcases h with ⟨rfl, rfl⟩ | ⟨rfl, rfl⟩ | ⟨rfl, rfl⟩ | ⟨rfl, rfl⟩ | ⟨rfl, rfl⟩ | ⟨rfl, rfl⟩ | ⟨rfl, rfl⟩ | ⟨rfl, rfl⟩ <;> rfl
  | unicode a b c d i j k l hi hj hk hl =>
    have hp := (parseHex4_iff ([a, b, c, d] ++ t) _ t).mpr ⟨a, b, c, d, i, j, k, l, rfl, hi, hj, hk, hl, rfl⟩
    apply scanString_escape (r := 'u' :: ([a, b, c, d] ++ t))
    rw [parseEscape, if_pos rfl, parseUnicodeEscape, hp]
    simp only
    split
    · rename_i hh; rw [ht hh]
    · rfl

/-- a high and a low surrogate -/
theorem scanString_tokens {e e' : List Char} {h l : Nat} (he : JsonChar e h) (he' : JsonChar e' l) (hh : isHigh h = true) (hl : isLow l = true)
    (f : Nat) (t : List Char) : scanString (f + 1) (e ++ (e' ++ t)) = (scanString f t).map (fun y => (chr (joinSurrogates h l) :: y.1, y.2)) := by
  have hp := (parseLow_iff (e' ++ t) l t).mpr ⟨e', rfl, he', hl⟩
  rw [isHigh_iff] at hh
  cases he with
  | plain c _ _ _ =>
    exfalso
    have := c.valid
    have e : c.toNat = c.val.toNat := rfl
    rcases this with h | h <;> omega
  | short c n h =>
    exfalso
    simp only [List.mem_cons, Prod.mk.injEq, List.not_mem_nil, or_false] at h
    omega
  | unicode a b c d i j k l hi hj hk hl =>
    have hq := (parseHex4_iff ([a, b, c, d] ++ (e' ++ t)) _ (e' ++ t)).mpr ⟨a, b, c, d, i, j, k, l, rfl, hi, hj, hk, hl, rfl⟩
    apply scanString_escape (r := 'u' :: ([a, b, c, d] ++ (e' ++ t)))
    rw [parseEscape, if_pos rfl, parseUnicodeEscape, hq]
    simp only
    rw [if_pos ((isHigh_iff _).mpr hh), hp]

theorem pair_iff {h l : Nat} (hh : h < 1114112) (hl : l < 1114112) :
    SurrogatePair (Fin.ofNat 1114112 h) (Fin.ofNat 1114112 l) ↔ isHigh h = true ∧ isLow l = true := by
  unfold SurrogatePair
  rw [val_ofNat hh, val_ofNat hl, isHigh_iff, isLow_iff]
  omega

theorem scanString_complete (rest : List Char) : ∀ (f : Nat) (t : List Char) (s : PyStr), JsonChars t s → t.length + 1 ≤ f →
    scanString f (t ++ '"' :: rest) = some (joinPairs s, rest) := by
  intro f
  induction f using Nat.strongRecOn with
  | _ f ih =>
    intro t s h hf
    obtain ⟨f, rfl⟩ : ∃ g, f = g + 1 := ⟨f - 1, by omega⟩
    have pos : ∀ {e n}, JsonChar e n → 1 ≤ e.length := by
      intro e n h; cases h <;> simp
    cases h with
    | nil => simp [scanString, joinPairs]
    | cons e t n s he h =>
      have := pos he
      rw [List.length_append] at hf
      cases h with
      | nil =>
        rw [List.append_nil, scanString_token he _ _ (fun _ => parseLow_ne_bs '"' (by decide) rest)]
        have := ih f (by omega) [] [] .nil (by simp; omega)
        rw [List.nil_append] at this
        rw [this]
        rfl
      | cons e' t l s he' h =>
        have := pos he'
        rw [List.length_append] at hf
        rw [joinPairs]
        by_cases hp : isHigh n = true ∧ isLow l = true
        · rw [if_pos ((pair_iff (jsonChar_lt he) (jsonChar_lt he')).mpr hp), List.append_assoc, List.append_assoc,
            scanString_tokens he he' hp.1 hp.2, ih f (by omega) t s h (by omega), val_ofNat (jsonChar_lt he), val_ofNat (jsonChar_lt he')]
          rfl
        · rw [if_neg (fun h => hp ((pair_iff (jsonChar_lt he) (jsonChar_lt he')).mp h)), List.append_assoc, scanString_token he,
            ih f (by omega) (e' ++ t) _ (.cons e' t l s he' h) (by rw [List.length_append]; omega)]
          · rfl
          · intro hh
            rw [List.append_assoc]
            exact parseLow_token he' (by simpa [hh] using hp) _

/-- the first character of a text that is not joined -/
theorem joinPairs_single {n : Nat} {t : List Char} {s : PyStr} (h : JsonChars t s) (hn : n < 1114112) (rest : List Char)
    (hl : isHigh n = true → parseLow (t ++ '"' :: rest) = none) : joinPairs (Fin.ofNat 1114112 n :: s) = chr n :: joinPairs s := by
  cases h with
  | nil => rfl
  | cons e t l s he h =>
    rw [joinPairs, if_neg]
    · rfl
    · intro hp
      obtain ⟨h1, h2⟩ := (pair_iff hn (jsonChar_lt he)).mp hp
      have := hl h1
      rw [List.append_assoc, (parseLow_iff (e ++ (t ++ '"' :: rest)) l _).mpr ⟨e, rfl, he, h2⟩] at this
      cases this

theorem scanString_sound : ∀ (f : Nat) (u : List Char) (s : PyStr) (r : List Char), scanString f u = some (s, r) →
    ∃ t s', u = t ++ '"' :: r ∧ JsonChars t s' ∧ s = joinPairs s' := by
  intro f
  induction f with
  | zero => intro u s r h; cases h
  | succ f ih =>
    intro u s r h
    cases u with
    | nil => cases h
    | cons c u =>
      rw [scanString_cons] at h
      by_cases h1 : c = '"'
      · rw [if_pos h1] at h
        cases h
        exact ⟨[], [], by rw [h1]; rfl, .nil, rfl⟩
      rw [if_neg h1] at h
      -- one character, read by itself
      have single : ∀ (e : List Char) (n : Nat) (u' : List Char), JsonChar e n → c :: u = e ++ u' → (isHigh n = true → parseLow u' = none) →
          (scanString f u').map (fun y => (chr n :: y.1, y.2)) = some (s, r) → ∃ t s', c :: u = t ++ '"' :: r ∧ JsonChars t s' ∧ s = joinPairs s' := by
        intro e n u' he hu hl hm
        rw [Option.map_eq_some_iff] at hm
        obtain ⟨⟨s1, r1⟩, h2, h3⟩ := hm
        cases h3
        obtain ⟨t, s', rfl, h5, rfl⟩ := ih _ _ _ h2
        exact ⟨e ++ t, Fin.ofNat 1114112 n :: s', by rw [hu, List.append_assoc], .cons e t n s' he h5, (joinPairs_single h5 (jsonChar_lt he) _ hl).symm⟩
      by_cases h2 : c = '\\'
      · rw [if_pos h2] at h
        subst h2
        cases u with
        | nil => cases h
        | cons x u =>
          have short : ∀ n, (x, n) ∈ [('"', 0x22), ('\\', 0x5C), ('/', 0x2F), ('b', 8), ('f', 0xC), ('n', 0xA), ('r', 0xD), ('t', 9)] →
              parseEscape (x :: u) = some (chr n, u) → ∃ t s', '\\' :: x :: u = t ++ '"' :: r ∧ JsonChars t s' ∧ s = joinPairs s' := by
            intro n hx hp
            rw [hp] at h
            refine single ['\\', x] n u (.short x n hx) rfl ?_ h
            intro hh
            rw [isHigh_iff] at hh
            simp only [List.mem_cons, Prod.mk.injEq, List.not_mem_nil, or_false] at hx
            omega
          by_cases hu : x = 'u'
          · subst hu
            rw [parseEscape, if_pos rfl, parseUnicodeEscape] at h
            cases hp : parseHex4 u with
            | none => rw [hp] at h; cases h
            | some y =>
              obtain ⟨n, u'⟩ := y
              rw [hp] at h
              simp only at h
              obtain ⟨a, b, c, d, i, j, k, l, rfl, hi, hj, hk, hl, rfl⟩ := (parseHex4_iff _ _ _).mp hp
              have he := JsonChar.unicode a b c d i j k l hi hj hk hl
              by_cases hh : isHigh (4096 * i + 256 * j + 16 * k + l) = true
              · rw [if_pos hh] at h
                cases hq : parseLow u' with
                | none =>
                  rw [hq] at h
                  exact single _ _ u' he rfl (fun _ => hq) h
                | some y =>
                  obtain ⟨m, u''⟩ := y
                  rw [hq] at h
                  simp only at h
                  obtain ⟨e', rfl, he', hm⟩ := (parseLow_iff _ _ _).mp hq
                  rw [Option.map_eq_some_iff] at h
                  obtain ⟨⟨s1, r1⟩, h2, h3⟩ := h
                  cases h3
                  obtain ⟨t, s', rfl, h5, rfl⟩ := ih _ _ _ h2
                  refine ⟨_ ++ (e' ++ t), _, ?_, .cons _ _ _ _ he (.cons e' t m s' he' h5), ?_⟩
                  · simp
                  · rw [joinPairs, if_pos ((pair_iff (jsonChar_lt he) (jsonChar_lt he')).mpr ⟨hh, hm⟩), val_ofNat (jsonChar_lt he), val_ofNat (jsonChar_lt he')]
                    rfl
              · rw [if_neg hh] at h
                exact single _ _ u' he rfl (fun h => absurd h hh) h
          · rw [parseEscape, if_neg hu] at h short
            by_cases h3 : x = '"' ∨ x = '\\' ∨ x = '/'
            · refine short x.toNat ?_ (by rw [if_pos h3])
              rcases h3 with rfl | rfl | rfl <;> decide
            rw [if_neg h3] at h short
            by_cases h4 : x = 'b'
            · exact short 8 (by rw [h4]; decide) (by rw [if_pos h4])
            rw [if_neg h4] at h short
            by_cases h4 : x = 'f'
            · exact short 12 (by rw [h4]; decide) (by rw [if_pos h4])
            rw [if_neg h4] at h short
            by_cases h4 : x = 'n'
            · exact short 10 (by rw [h4]; decide) (by rw [if_pos h4])
            rw [if_neg h4] at h short
            by_cases h4 : x = 'r'
            · exact short 13 (by rw [h4]; decide) (by rw [if_pos h4])
            rw [if_neg h4] at h short
            by_cases h4 : x = 't'
            · exact short 9 (by rw [h4]; decide) (by rw [if_pos h4])
            rw [if_neg h4] at h
            cases h
      rw [if_neg h2] at h
      by_cases h3 : c.toNat < 32
      · rw [if_pos h3] at h; cases h
      rw [if_neg h3] at h
      refine single [c] c.toNat u (.plain c h1 h2 (by omega)) rfl ?_ h
      intro hh
      rw [isHigh_iff] at hh
      have := c.valid
      have e : c.toNat = c.val.toNat := rfl
      exfalso
      rcases this with h | h <;> omega

/-! ### dicts -/

theorem eraseDups_append_singleton {α : Type} [BEq α] [LawfulBEq α] (l : List α) (a : α) :
    (l ++ [a]).eraseDups = if a ∈ l then l.eraseDups else l.eraseDups ++ [a] := by
  rw [List.eraseDups_append]
  by_cases h : a ∈ l
  · simp [List.removeAll, h]
  · simp [List.removeAll, h, List.eraseDups_cons]

theorem dictOf_set {l d : List (PyStr × Json)} (h : DictOf l d) (k : PyStr) (v : Json) : DictOf (l ++ [(k, v)]) (dictSet d k v) := by
  obtain ⟨h1, h2⟩ := h
  have hk : k ∈ d.map (·.1) ↔ k ∈ l.map (·.1) := by rw [h1, List.mem_eraseDups]
  unfold dictSet
  by_cases hc : k ∈ d.map (·.1)
  · rw [if_pos (by simpa using hc)]
    constructor
    · rw [List.map_append, List.map_cons, List.map_nil, eraseDups_append_singleton, if_pos (hk.mp hc), ← h1, List.map_map]
      apply List.map_congr_left
      intro x _
      show (if x.1 = k then (k, v) else x).1 = x.1
      split
      · rename_i h; exact h.symm
      · rfl
    · intro k' v' hm
      obtain ⟨y, hy, hf⟩ := List.mem_map.mp hm
      split at hf
      · cases hf
        exact ⟨l, [], rfl, by simp⟩
      · rename_i hne
        subst hf
        obtain ⟨b, a, rfl, h4⟩ := h2 _ _ hy
        refine ⟨b, a ++ [(k, v)], by simp, ?_⟩
        rw [List.map_append, List.mem_append]
        rintro (h | h)
        · exact h4 h
        · exact hne (by simpa using h)
  · rw [if_neg (by simpa using hc)]
    constructor
    · rw [List.map_append, List.map_append, List.map_cons, List.map_nil, eraseDups_append_singleton, if_neg (fun h => hc (hk.mpr h)), ← h1]
    · intro k' v' hm
      rcases List.mem_append.mp hm with hd | hd
      · have hne : k' ≠ k := by
          rintro rfl
          exact hc (List.mem_map.mpr ⟨(k', v'), hd, rfl⟩)
        obtain ⟨b, a, rfl, h4⟩ := h2 _ _ hd
        refine ⟨b, a ++ [(k, v)], by simp, ?_⟩
        rw [List.map_append, List.mem_append]
        rintro (h | h)
        · exact h4 h
        · exact hne (by simpa using h)
      · cases List.mem_singleton.mp hd
        exact ⟨l, [], rfl, by simp⟩

theorem dictOf_foldl (xs : List (PyStr × Json)) : ∀ {l d : List (PyStr × Json)}, DictOf l d →
    DictOf (l ++ xs) (xs.foldl (fun d x => dictSet d x.1 x.2) d) := by
  induction xs with
  | nil => intro l d h; rw [List.append_nil]; exact h
  | cons x xs ih =>
    intro l d h
    have := ih (dictOf_set h x.1 x.2)
    rw [List.append_assoc] at this
    exact this

theorem dictOf_dictOfPairs (l : List (PyStr × Json)) : DictOf l (dictOfPairs l) :=
  dictOf_foldl l (l := []) (d := []) ⟨rfl, by simp⟩

theorem last_unique {l b b' a a' : List (PyStr × Json)} {k : PyStr} {v v' : Json} (h : l = b ++ (k, v) :: a) (hk : k ∉ a.map (·.1))
    (h' : l = b' ++ (k, v') :: a') (hk' : k ∉ a'.map (·.1)) : v = v' := by
  rw [h] at h'
  rcases List.append_eq_append_iff.mp h' with ⟨m, -, h3⟩ | ⟨m, -, h3⟩
  · cases m with
    | nil => injection h3 with h3 _; injection h3
    | cons x m =>
      injection h3 with _ h3
      exact absurd (by rw [h3]; simp) hk
  · cases m with
    | nil => injection h3 with h3 _; injection h3 with _ h3; exact h3.symm
    | cons x m =>
      injection h3 with _ h3
      exact absurd (by rw [h3]; simp) hk'

theorem Spec.DictOf.unique {l d d' : List (PyStr × Json)} (h : DictOf l d) (h' : DictOf l d') : d = d' := by
  obtain ⟨h1, h2⟩ := h
  obtain ⟨h3, h4⟩ := h'
  have e := h1.trans h3.symm
  have hl : d.length = d'.length := by simpa using congrArg List.length e
  apply List.ext_getElem hl
  intro i hi hi'
  have ek : d[i].1 = d'[i].1 := by
    have := List.getElem_of_eq e (i := i) (by simpa using hi)
    simpa using this
  obtain ⟨b, a, h5, h6⟩ := h2 d[i].1 d[i].2 (List.getElem_mem hi)
  obtain ⟨b', a', h7, h8⟩ := h4 d'[i].1 d'[i].2 (List.getElem_mem hi')
  rw [← ek] at h7 h8
  exact Prod.ext ek (last_unique h5 h6 h7 h8)

/-! ### white space -/

theorem skipWs_space {w : List Char} (hw : JsonSpace w) (r : List Char) : skipWs (w ++ r) = skipWs r := by
  induction w with
  | nil => rfl
  | cons c w ih =>
    have := hw c (by simp)
    rw [List.cons_append, skipWs, if_pos (by simpa using this), ih (fun x hx => hw x (by simp [hx]))]

theorem skipWs_sound (s : List Char) : ∃ w, JsonSpace w ∧ s = w ++ skipWs s := by
  induction s with
  | nil => exact ⟨[], fun _ h => absurd h (by simp), rfl⟩
  | cons c s ih =>
    rw [skipWs]
    split
    · rename_i h
      obtain ⟨w, h1, h2⟩ := ih
      refine ⟨c :: w, ?_, by rw [List.cons_append, ← h2]⟩
      intro x hx
      rcases List.mem_cons.mp hx with rfl | hx
      · simpa using h
      · exact h1 x hx
    · exact ⟨[], fun _ h => absurd h (by simp), rfl⟩

theorem stops_space {w r : List Char} (hw : JsonSpace w) (hr : Stops r) : Stops (w ++ r) := by
  cases w with
  | nil => exact hr
  | cons c w =>
    intro x hx
    simp only [List.cons_append, List.head?_cons, Option.mem_some_iff] at hx
    subst hx
    have := hw c (by simp)
    simp only [List.mem_cons, List.not_mem_nil, or_false] at this
    rcases this with rfl | rfl | rfl | rfl <;> decide

theorem headed {s : List Char} {c : Char} (h : s.head? = some c) : s = c :: s.drop 1 := by
  cases s with
  | nil => cases h
  | cons a s => cases h; rfl

/-! ### values -/

theorem Spec.JsonValue.head {t : List Char} {v : Json} (h : JsonValue t v) : ∃ c u, t = c :: u ∧ StartsValue c := by
  cases h with
  | null => exact ⟨'n', _, rfl, by simp [StartsValue]⟩
  | true => exact ⟨'t', _, rfl, by simp [StartsValue]⟩
  | false => exact ⟨'f', _, rfl, by simp [StartsValue]⟩
  | nat t v h =>
    obtain ⟨c, u, rfl, h2, -⟩ := h.facts
    exact ⟨c, u, rfl, by simp [StartsValue, h2 c (by simp)]⟩
  | neg => exact ⟨_, _, rfl, by simp [StartsValue]⟩
  | float t d h =>
    obtain ⟨c, u, h1, h2⟩ := jsonFloat_head h
    exact ⟨c, u, h1, by rcases h2 with h | h <;> simp [StartsValue, h]⟩
  | nan => exact ⟨'N', _, rfl, by simp [StartsValue]⟩
  | infinity => exact ⟨'I', _, rfl, by simp [StartsValue]⟩
  | negInfinity => exact ⟨'-', _, rfl, by simp [StartsValue]⟩
  | str t s h => obtain ⟨u, s', rfl, -⟩ := h; exact ⟨_, _, rfl, by simp [StartsValue]⟩
  | emptyArr => exact ⟨_, _, rfl, by simp [StartsValue]⟩
  | arr => exact ⟨_, _, rfl, by simp [StartsValue]⟩
  | emptyObj => exact ⟨_, _, rfl, by simp [StartsValue]⟩
  | obj => exact ⟨_, _, rfl, by simp [StartsValue]⟩

theorem Spec.JsonElements.head {t : List Char} {l : List Json} (h : JsonElements t l) : ∃ c u, t = c :: u ∧ StartsValue c := by
  cases h with
  | one t w v h _ =>
    obtain ⟨c, u, rfl, hc⟩ := h.head
    exact ⟨c, _, rfl, hc⟩
  | more t w w' u v l h _ _ _ =>
    obtain ⟨c, u, rfl, hc⟩ := h.head
    exact ⟨c, _, rfl, hc⟩

theorem Spec.JsonMember.head {t : List Char} {k : PyStr} {v : Json} (h : JsonMember t k v) : ∃ u, t = '"' :: u := by
  cases h with
  | mk t w w' u k v h _ _ _ => obtain ⟨x, s', rfl, -⟩ := h; exact ⟨_, rfl⟩

theorem Spec.JsonMembers.head {t : List Char} {l : List (PyStr × Json)} (h : JsonMembers t l) : ∃ u, t = '"' :: u := by
  cases h with
  | one t w k v h _ =>
    obtain ⟨u, rfl⟩ := h.head
    exact ⟨_, rfl⟩
  | more t w w' u k v l h _ _ _ =>
    obtain ⟨u, rfl⟩ := h.head
    exact ⟨_, rfl⟩

theorem skipWs_value {w t : List Char} {v : Json} (hw : JsonSpace w) (h : JsonValue t v) (r : List Char) : skipWs (w ++ (t ++ r)) = t ++ r := by
  obtain ⟨c, u, rfl, hc⟩ := h.head
  rw [skipWs_space hw, List.cons_append, skipWs_start hc]

theorem skipWs_close {w : List Char} {c : Char} (hw : JsonSpace w) (hc : c = ',' ∨ c = ']' ∨ c = '}' ∨ c = ':' ∨ c = '"') (r : List Char) :
    skipWs (w ++ c :: r) = c :: r := by
  rw [skipWs_space hw, skipWs_punct hc]

theorem parseItems_step (f : Nat) (x : List Char) (k : PyStr) (v : Json) (r0 r1 r : List Char)
    (hk : scanString (x.length + 2) x = some (k, r0)) (hc : skipWs r0 = ':' :: r1) (hv : parseValue f (skipWs r1) = some (v, r)) :
    parseItems (f + 1) ('"' :: x) =
      if (skipWs r).head? = some '}' then some ([(k, v)], (skipWs r).drop 1)
      else if (skipWs r).head? = some ',' then
        (parseItems f (skipWs ((skipWs r).drop 1))).map (fun y => ((k, v) :: y.1, y.2))
      else none := by
  rw [parseItems]
  have e : scanString (('"' :: x).length + 1) (List.drop 1 ('"' :: x)) = some (k, r0) := hk
  rw [e]
  simp only [hc]
  simp [hv]

/-- a member of an object is read -/
theorem parseItems_member {f : Nat} (ih : ∀ t v r, JsonValue t v → 2 * t.length ≤ f → Stops r → parseValue f (t ++ r) = some (v, r))
    {t : List Char} {k : PyStr} {v : Json} (h : JsonMember t k v) (hf : 2 * t.length ≤ f) {r : List Char} (hr : Stops r) :
    parseItems (f + 1) (t ++ r) =
      if (skipWs r).head? = some '}' then some ([(k, v)], (skipWs r).drop 1)
      else if (skipWs r).head? = some ',' then
        (parseItems f (skipWs ((skipWs r).drop 1))).map (fun y => ((k, v) :: y.1, y.2))
      else none := by
  cases h with
  | mk t w w' u k v h hw hw' hv =>
    obtain ⟨x, s', rfl, hx, rfl⟩ := h
    simp only [List.length_cons, List.length_append] at hf
    have e : '"' :: (x ++ ['"']) ++ (w ++ ':' :: (w' ++ u)) ++ r = '"' :: (x ++ '"' :: (w ++ ':' :: (w' ++ (u ++ r)))) := by simp
    rw [e]
    apply parseItems_step f _ _ v (w ++ ':' :: (w' ++ (u ++ r))) (w' ++ (u ++ r)) r
    · exact scanString_complete _ _ x s' hx (by simp only [List.length_append, List.length_cons]; omega)
    · exact skipWs_close hw (by simp) _
    · rw [skipWs_value hw' hv]
      exact ih u v r hv (by omega) hr

/-- every text of the grammar is read -/
theorem parseJson_complete (fuel : Nat) :
    (∀ t v r, JsonValue t v → 2 * t.length ≤ fuel → Stops r → parseValue fuel (t ++ r) = some (v, r)) ∧
    (∀ t l r, JsonElements t l → 2 * t.length + 1 ≤ fuel → parseElems fuel (t ++ ']' :: r) = some (l, r)) ∧
    (∀ t l r, JsonMembers t l → 2 * t.length + 1 ≤ fuel → parseItems fuel (t ++ '}' :: r) = some (l, r)) := by
  induction fuel with
  | zero =>
    refine ⟨?_, ?_, ?_⟩
    · intro t v r h hf
      obtain ⟨c, u, rfl, -⟩ := h.head
      simp at hf
    · intro t l r h hf; omega
    · intro t l r h hf; omega
  | succ f ih =>
    obtain ⟨ih1, ih2, ih3⟩ := ih
    refine ⟨?_, ?_, ?_⟩
    · intro t v r h hf hr
      cases h with
      | null => rw [show "null".toList ++ r = 'n' :: 'u' :: 'l' :: 'l' :: r from rfl, parseValue]; rfl
      | true => rw [show "true".toList ++ r = 't' :: 'r' :: 'u' :: 'e' :: r from rfl, parseValue]; rfl
      | false => rw [show "false".toList ++ r = 'f' :: 'a' :: 'l' :: 's' :: 'e' :: r from rfl, parseValue]; rfl
      | nat t v h =>
        have := (parseNumber_complete h hr).1
        obtain ⟨c, u, rfl, h2, -⟩ := h.facts
        rw [List.cons_append] at this ⊢
        rw [parseValue_number _ _ _ (.inr (h2 c (by simp))) (fun hc => absurd hc (digit_ne (h2 c (by simp))).1), this]
      | neg t v h => rw [List.cons_append, parseValue_number _ _ _ (.inl rfl) (fun _ => digits_head_ne h r), (parseNumber_complete h hr).2]
      | float t d h => exact parseValue_float h f hr
      | nan => rw [show "NaN".toList ++ r = 'N' :: 'a' :: 'N' :: r from rfl, parseValue]; rfl
      | infinity => rw [show "Infinity".toList ++ r = 'I' :: (infinityTail ++ r) from rfl, parseValue]; rfl
      | negInfinity => rw [show "-Infinity".toList ++ r = '-' :: ('I' :: infinityTail ++ r) from rfl, parseValue]; rfl
      | str t s h =>
        obtain ⟨u, s', rfl, hu, rfl⟩ := h
        rw [List.cons_append, parseValue_str, List.append_assoc, List.singleton_append,
          scanString_complete r _ u s' hu (by simp only [List.length_append, List.length_cons]; omega)]
        rfl
      | emptyArr w hw =>
        rw [List.cons_append, parseValue_arr, List.append_assoc, List.singleton_append, skipWs_close hw (by simp)]
        rfl
      | arr w t l hw h =>
        simp only [List.length_cons, List.length_append] at hf
        have e : skipWs (w ++ (t ++ ']' :: r)) = t ++ ']' :: r ∧ (t ++ ']' :: r).head? ≠ some ']' := by
          obtain ⟨c, u, rfl, hc⟩ := h.head
          refine ⟨by rw [skipWs_space hw, List.cons_append, skipWs_start hc], ?_⟩
          simp only [List.cons_append, List.head?_cons, ne_eq, Option.some.injEq]
          exact hc.ne ']' (by decide)
        rw [List.cons_append, parseValue_arr, List.append_assoc, List.append_assoc, List.singleton_append, e.1, if_neg e.2, ih2 t l r h (by omega)]
        rfl
      | emptyObj w hw =>
        rw [List.cons_append, parseValue_obj, List.append_assoc, List.singleton_append, skipWs_close hw (by simp)]
        rfl
      | obj w t l d hw h hd =>
        simp only [List.length_cons, List.length_append] at hf
        have e : skipWs (w ++ (t ++ '}' :: r)) = t ++ '}' :: r ∧ (t ++ '}' :: r).head? ≠ some '}' := by
          obtain ⟨u, rfl⟩ := h.head
          refine ⟨by rw [List.cons_append, skipWs_close hw (by simp)], ?_⟩
          simp
        rw [List.cons_append, parseValue_obj, List.append_assoc, List.append_assoc, List.singleton_append, e.1, if_neg e.2, ih3 t l r h (by omega),
          hd.unique (dictOf_dictOfPairs l)]
        rfl
    · intro t l r h hf
      cases h with
      | one t w v h hw =>
        rw [List.length_append] at hf
        rw [List.append_assoc, parseElems_succ f _ v (w ++ ']' :: r) (ih1 t v _ h (by omega) (stops_space hw (stops_punct (by simp) r))),
          skipWs_close hw (by simp), if_pos List.head?_cons]
        rfl
      | more t w w' u v l h hw hw' hu =>
        simp only [List.length_append, List.length_cons] at hf
        have e : t ++ (w ++ ',' :: (w' ++ u)) ++ ']' :: r = t ++ (w ++ ',' :: (w' ++ (u ++ ']' :: r))) := by simp
        have e2 : skipWs (w' ++ (u ++ ']' :: r)) = u ++ ']' :: r := by
          obtain ⟨c, x, rfl, hc⟩ := hu.head
          rw [skipWs_space hw', List.cons_append, skipWs_start hc]
        rw [e, parseElems_succ f _ v _ (ih1 t v _ h (by omega) (stops_space hw (stops_punct (by simp) _))),
          skipWs_close hw (by simp), if_neg (by simp), if_pos List.head?_cons]
        simp only [List.drop_succ_cons, List.drop_zero]
        rw [e2, ih2 u l r hu (by omega)]
        rfl
    · intro t l r h hf
      cases h with
      | one t w k v h hw =>
        rw [List.length_append] at hf
        rw [List.append_assoc, parseItems_member ih1 h (by omega) (stops_space hw (stops_punct (by simp) r)),
          skipWs_close hw (by simp), if_pos List.head?_cons]
        rfl
      | more t w w' u k v l h hw hw' hu =>
        simp only [List.length_append, List.length_cons] at hf
        have e : t ++ (w ++ ',' :: (w' ++ u)) ++ '}' :: r = t ++ (w ++ ',' :: (w' ++ (u ++ '}' :: r))) := by simp
        have e2 : skipWs (w' ++ (u ++ '}' :: r)) = u ++ '}' :: r := by
          obtain ⟨x, rfl⟩ := hu.head
          rw [List.cons_append, skipWs_close hw' (by simp)]
        rw [e, parseItems_member ih1 h (by omega) (stops_space hw (stops_punct (by simp) _)),
          skipWs_close hw (by simp), if_neg (by simp), if_pos List.head?_cons]
        simp only [List.drop_succ_cons, List.drop_zero]
        rw [e2, ih3 u l r hu (by omega)]
        rfl

theorem take_prefix {s p : List Char} (h : s.take p.length = p) : s = p ++ s.drop p.length := by
  conv => lhs; rw [← List.take_append_drop p.length s, h]

/-- what is read is a text of the grammar -/
theorem parseJson_sound (fuel : Nat) :
    (∀ s v r, parseValue fuel s = some (v, r) → ∃ t, s = t ++ r ∧ JsonValue t v) ∧
    (∀ s l r, parseElems fuel s = some (l, r) → ∃ t, s = t ++ ']' :: r ∧ JsonElements t l) ∧
    (∀ s l r, parseItems fuel s = some (l, r) → ∃ t, s = t ++ '}' :: r ∧ JsonMembers t l) := by
  induction fuel with
  | zero =>
    refine ⟨?_, ?_, ?_⟩
    · intro s v r h; rw [parseValue] at h; cases h
    · intro s v r h; rw [parseElems] at h; cases h
    · intro s v r h; rw [parseItems] at h; cases h
  | succ f ih =>
    obtain ⟨ih1, ih2, ih3⟩ := ih
    refine ⟨?_, ?_, ?_⟩
    · intro s v r h
      cases s with
      | nil => rw [parseValue] at h; cases h
      | cons c s =>
        by_cases h1 : c = '"'
        · subst h1
          rw [parseValue_str, Option.map_eq_some_iff] at h
          obtain ⟨⟨s1, r1⟩, h2, h3⟩ := h
          cases h3
          obtain ⟨t, s', rfl, h5, rfl⟩ := scanString_sound _ _ _ _ h2
          exact ⟨'"' :: (t ++ ['"']), by simp, .str _ _ ⟨t, s', rfl, h5, rfl⟩⟩
        by_cases h2 : c = '['
        · subst h2
          rw [parseValue_arr] at h
          obtain ⟨w, hw, hs⟩ := skipWs_sound s
          by_cases h3 : (skipWs s).head? = some ']'
          · rw [if_pos h3] at h
            cases h
            refine ⟨'[' :: (w ++ [']']), ?_, .emptyArr w hw⟩
            conv => lhs; rw [hs, headed h3]
            simp
          · rw [if_neg h3, Option.map_eq_some_iff] at h
            obtain ⟨⟨l, r1⟩, h4, h5⟩ := h
            cases h5
            obtain ⟨t, h6, h7⟩ := ih2 _ _ _ h4
            refine ⟨'[' :: (w ++ (t ++ [']'])), ?_, .arr w t l hw h7⟩
            conv => lhs; rw [hs, h6]
            simp
        by_cases h3 : c = '{'
        · subst h3
          rw [parseValue_obj] at h
          obtain ⟨w, hw, hs⟩ := skipWs_sound s
          by_cases h3 : (skipWs s).head? = some '}'
          · rw [if_pos h3] at h
            cases h
            refine ⟨'{' :: (w ++ ['}']), ?_, .emptyObj w hw⟩
            conv => lhs; rw [hs, headed h3]
            simp
          · rw [if_neg h3, Option.map_eq_some_iff] at h
            obtain ⟨⟨l, r1⟩, h4, h5⟩ := h
            cases h5
            obtain ⟨t, h6, h7⟩ := ih3 _ _ _ h4
            refine ⟨'{' :: (w ++ (t ++ ['}'])), ?_, .obj w t l _ hw h7 (dictOf_dictOfPairs l)⟩
            conv => lhs; rw [hs, h6]
            simp
        rw [parseValue, if_neg h1, if_neg h2, if_neg h3] at h
        by_cases h4 : c = 'n'
        · rw [if_pos h4] at h
          split at h
          · rename_i h5
            cases h
            exact ⟨"null".toList, by rw [h4]; exact congrArg ('n' :: ·) (take_prefix h5), .null⟩
          · cases h
        rw [if_neg h4] at h
        by_cases h4 : c = 't'
        · rw [if_pos h4] at h
          split at h
          · rename_i h5
            cases h
            exact ⟨"true".toList, by rw [h4]; exact congrArg ('t' :: ·) (take_prefix h5), .true⟩
          · cases h
        rw [if_neg h4] at h
        by_cases h4 : c = 'f'
        · rw [if_pos h4] at h
          split at h
          · rename_i h5
            cases h
            exact ⟨"false".toList, by rw [h4]; exact congrArg ('f' :: ·) (take_prefix h5), .false⟩
          · cases h
        rw [if_neg h4] at h
        by_cases h4 : c = 'N'
        · rw [if_pos h4] at h
          split at h
          · rename_i h5
            cases h
            exact ⟨"NaN".toList, by rw [h4]; exact congrArg ('N' :: ·) (take_prefix h5), .nan⟩
          · cases h
        rw [if_neg h4] at h
        by_cases h4 : c = 'I'
        · rw [if_pos h4] at h
          split at h
          · rename_i h5
            cases h
            exact ⟨"Infinity".toList, by rw [h4]; exact congrArg ('I' :: ·) (take_prefix (p := infinityTail) h5), .infinity⟩
          · cases h
        rw [if_neg h4] at h
        split at h
        · rename_i h5
          cases h
          exact ⟨"-Infinity".toList, by rw [h5.1]; exact congrArg ('-' :: ·) (take_prefix (p := 'I' :: infinityTail) h5.2), .negInfinity⟩
        exact parseNumber_sound h
    · intro s l r h
      rw [parseElems] at h
      cases hp : parseValue f s with
      | none => rw [hp] at h; cases h
      | some y =>
        obtain ⟨v, r1⟩ := y
        rw [hp] at h
        simp only at h
        obtain ⟨t, rfl, hv⟩ := ih1 _ _ _ hp
        obtain ⟨w, hw, hs⟩ := skipWs_sound r1
        by_cases h3 : (skipWs r1).head? = some ']'
        · rw [if_pos h3] at h
          cases h
          refine ⟨t ++ w, ?_, .one t w v hv hw⟩
          conv => lhs; rw [hs, headed h3]
          simp
        rw [if_neg h3] at h
        by_cases h4 : (skipWs r1).head? = some ','
        · rw [if_pos h4, Option.map_eq_some_iff] at h
          obtain ⟨⟨l, r2⟩, h5, h6⟩ := h
          cases h6
          obtain ⟨u, h7, h8⟩ := ih2 _ _ _ h5
          obtain ⟨w', hw', hs'⟩ := skipWs_sound ((skipWs r1).drop 1)
          refine ⟨t ++ (w ++ ',' :: (w' ++ u)), ?_, .more t w w' u v l hv hw hw' h8⟩
          conv => lhs; rw [hs, headed h4, hs', h7]
          simp
        · rw [if_neg h4] at h; cases h
    · intro s l r h
      rw [parseItems] at h
      by_cases h1 : s.head? = some '"'
      · rw [if_pos h1] at h
        cases hk : scanString (s.length + 1) (s.drop 1) with
        | none => rw [hk] at h; cases h
        | some y =>
          obtain ⟨k, r0⟩ := y
          rw [hk] at h
          simp only at h
          obtain ⟨x, s', hx, h5, h6⟩ := scanString_sound _ _ _ _ hk
          obtain ⟨w, hw, hs⟩ := skipWs_sound r0
          by_cases h2 : (skipWs r0).head? = some ':'
          · rw [if_pos h2] at h
            obtain ⟨w1, hw1, hs1⟩ := skipWs_sound ((skipWs r0).drop 1)
            cases hp : parseValue f (skipWs ((skipWs r0).drop 1)) with
            | none => rw [hp] at h; cases h
            | some y =>
              obtain ⟨v, r1⟩ := y
              rw [hp] at h
              simp only at h
              obtain ⟨u, hu, hv⟩ := ih1 _ _ _ hp
              have hm : JsonMember ('"' :: (x ++ ['"']) ++ (w ++ ':' :: (w1 ++ u))) k v := .mk _ w w1 u k v ⟨x, s', rfl, h5, h6⟩ hw hw1 hv
              have hall : s = '"' :: (x ++ ['"']) ++ (w ++ ':' :: (w1 ++ u)) ++ r1 := by
                conv => lhs; rw [headed h1, hx, hs, headed h2, hs1, hu]
                simp
              generalize '"' :: (x ++ ['"']) ++ (w ++ ':' :: (w1 ++ u)) = t at hm hall
              obtain ⟨w2, hw2, hs2⟩ := skipWs_sound r1
              by_cases h3 : (skipWs r1).head? = some '}'
              · rw [if_pos h3] at h
                cases h
                refine ⟨t ++ w2, ?_, .one t w2 k v hm hw2⟩
                rw [hall]
                conv => lhs; rw [hs2, headed h3]
                simp
              rw [if_neg h3] at h
              by_cases h4 : (skipWs r1).head? = some ','
              · rw [if_pos h4, Option.map_eq_some_iff] at h
                obtain ⟨⟨l, r2⟩, h5, h6⟩ := h
                cases h6
                obtain ⟨u', h7, h8⟩ := ih3 _ _ _ h5
                obtain ⟨w', hw', hs'⟩ := skipWs_sound ((skipWs r1).drop 1)
                refine ⟨t ++ (w2 ++ ',' :: (w' ++ u')), ?_, .more t w2 w' u' k v l hm hw2 hw' h8⟩
                rw [hall]
                conv => lhs; rw [hs2, headed h4, hs', h7]
                simp
              · rw [if_neg h4] at h; cases h
          · rw [if_neg h2] at h; cases h
      · rw [if_neg h1] at h; cases h

theorem skipWs_eq_nil {s : List Char} : skipWs s = [] ↔ JsonSpace s := by
  constructor
  · intro h
    obtain ⟨w, hw, hs⟩ := skipWs_sound s
    rw [h, List.append_nil] at hs
    rw [hs]
    exact hw
  · intro h
    have := skipWs_space h []
    rw [List.append_nil] at this
    exact this

/-- `json.loads` accepts exactly the texts of the grammar, with the values they spell -/
theorem loadsText_iff (s : List Char) (v : Json) : loadsText s = .ok v ↔ JsonText s v := by
  unfold loadsText
  constructor
  · intro h
    split at h
    · rename_i x r hp
      split at h
      · rename_i hr
        cases h
        obtain ⟨w, hw, hs⟩ := skipWs_sound s
        obtain ⟨t, h1, h2⟩ := (parseJson_sound _).1 _ _ _ hp
        exact ⟨w, t, r, by rw [← h1]; exact hs, hw, h2, skipWs_eq_nil.mp hr⟩
      · cases h
    · cases h
  · rintro ⟨w, t, w', rfl, hw, h, hw'⟩
    rw [skipWs_value hw h, (parseJson_complete _).1 t v w' h (by simp only [List.length_append]; omega)
      (by have := stops_space hw' stops_nil; rwa [List.append_nil] at this)]
    simp only
    rw [if_pos (skipWs_eq_nil.mpr hw')]

end Bloscpack
