import Verif.Model.Cli
import Verif.Props.Log
import Verif.Props.PrettySize
/-
The lines that objects and dicts are printed as.
-/
namespace Bloscpack

/-- no line break in the text -/
def OneLine (t : List Char) : Prop := '\n' ∉ t

theorem OneLine.append {a b : List Char} (ha : OneLine a) (hb : OneLine b) : OneLine (a ++ b) := by
  unfold OneLine at *; simp [ha, hb]

theorem OneLine.cons {c : Char} {b : List Char} (hc : c ≠ '\n') (hb : OneLine b) : OneLine (c :: b) := by
  unfold OneLine at *; simp [Ne.symm hc, hb]

theorem digit_not_nl {c : Char} (h : c.isDigit = true) : c ≠ '\n' := by
  rintro rfl; revert h; decide

theorem nat_oneLine (n : Nat) : OneLine (toString n).toList := by
  intro h
  exact digit_not_nl ((decimal_toString n).2.1 _ h) rfl

theorem int_text (i : Int) : (toString i).toList = if i < 0 then '-' :: (toString i.natAbs).toList else (toString i.natAbs).toList := by
  cases i with
  | ofNat n => rfl
  | negSucc n =>
    rw [if_pos (Int.negSucc_lt_zero n)]
    show (toString (Int.negSucc n)).toList = _
    have : toString (Int.negSucc n) = "-" ++ toString (n + 1) := rfl
    rw [this, String.toList_append]
    rfl

theorem int_oneLine (i : Int) : OneLine (toString i).toList := by
  rw [int_text]
  split
  · exact .cons (by decide) (nat_oneLine _)
  · exact nat_oneLine _

theorem nat_text_inj {m n : Nat} (h : (toString m).toList = (toString n).toList) : m = n := by
  have := congrArg Spec.decimal h
  rw [(decimal_toString m).1, (decimal_toString n).1] at this
  exact this

theorem int_text_inj {i j : Int} (h : (toString i).toList = (toString j).toList) : i = j := by
  have hd : ∀ n : Nat, ∀ r, (toString n).toList ≠ '-' :: r := by
    intro n r e
    have := (decimal_toString n).2.1 '-' (by rw [e]; exact List.mem_cons_self)
    revert this; decide
  rw [int_text, int_text] at h
  split at h <;> split at h
  · have := nat_text_inj (List.cons.inj h).2; omega
  · exact absurd h.symm (hd _ _)
  · exact absurd h (hd _ _)
  · have := nat_text_inj h; omega

theorem reprByte_oneLine (q : Nat) (hq : q = 34 ∨ q = 39) (b : UInt8) : OneLine (reprByte q b) := by
  have : ∀ n < 256, ∀ q ∈ [34, 39], '\n' ∉ reprByte q (UInt8.ofNat n) := by decide +kernel
  have h := this b.toNat b.toNat_lt q (by simpa using hq)
  rwa [UInt8.ofNat_toNat] at h

theorem reprBytes_oneLine (b : Bytes) : OneLine (reprBytes b) := by
  unfold reprBytes
  have : ∀ q, q = 34 ∨ q = 39 → OneLine ('b' :: Char.ofNat q :: (b.flatMap (reprByte q) ++ [Char.ofNat q])) := by
    intro q hq
    have hc : Char.ofNat q ≠ '\n' := by rcases hq with rfl | rfl <;> decide
    refine .cons (by decide) (.cons hc (.append ?_ (.cons hc (by simp [OneLine]))))
    intro h
    obtain ⟨x, -, hx⟩ := List.mem_flatMap.1 h
    exact reprByte_oneLine q hq x hx
  exact this _ (by split <;> simp)

/-! `repr` of bytes can be read back -/

/-- length of the first escape or character -/
def escLen : List Char → Nat
  | '\\' :: 'x' :: _ => 4
  | '\\' :: _ => 2
  | _ => 1

def byteHexValue (c : Char) : Nat := if c.toNat < 97 then c.toNat - 48 else c.toNat - 87

/-- the byte an escape or character stands for -/
def escValue : List Char → Nat
  | '\\' :: 'x' :: a :: b :: _ => 16 * byteHexValue a + byteHexValue b
  | '\\' :: 't' :: _ => 9
  | '\\' :: 'n' :: _ => 10
  | '\\' :: 'r' :: _ => 13
  | '\\' :: c :: _ => c.toNat
  | c :: _ => c.toNat
  | [] => 0

theorem reprByte_table : ∀ q ∈ [34, 39], ∀ n < 256, escLen (reprByte q (UInt8.ofNat n)) = (reprByte q (UInt8.ofNat n)).length ∧
    escValue (reprByte q (UInt8.ofNat n)) = n ∧ reprByte q (UInt8.ofNat n) ≠ [] ∧ reprByte q (UInt8.ofNat n) ≠ ['\\'] := by
  decide +kernel

theorem escLen_append (l r : List Char) (h1 : l ≠ []) (h2 : l ≠ ['\\']) : escLen (l ++ r) = escLen l := by
  match l, h1, h2 with
  | [c], _, h2 =>
    have hc : c ≠ '\\' := fun e => h2 (by rw [e])
    simp only [List.cons_append, List.nil_append]
    unfold escLen
    split <;> simp_all
  | c :: d :: t, _, _ =>
    simp only [List.cons_append]
    by_cases hc : c = '\\'
    · subst hc
      by_cases hd : d = 'x'
      · subst hd; rfl
      · simp [escLen, hd]
    · simp [escLen, hc]

theorem reprByte_inj {q : Nat} (hq : q = 34 ∨ q = 39) {x y : UInt8} {r r' : List Char} (h : reprByte q x ++ r = reprByte q y ++ r') :
    x = y ∧ r = r' := by
  have tab := fun z : UInt8 => reprByte_table q (by simpa [or_comm] using hq) z.toNat z.toNat_lt
  simp only [UInt8.ofNat_toNat] at tab
  obtain ⟨a1, a2, a3, a4⟩ := tab x
  obtain ⟨b1, b2, b3, b4⟩ := tab y
  have hl : (reprByte q x).length = (reprByte q y).length := by
    rw [← a1, ← b1, ← escLen_append _ r a3 a4, h, escLen_append _ r' b3 b4]
  obtain ⟨h1, h2⟩ := List.append_inj h hl
  refine ⟨UInt8.toNat_inj.1 ?_, h2⟩
  rw [← a2, h1, b2]

theorem reprBody_inj {q : Nat} (hq : q = 34 ∨ q = 39) {a b : Bytes} (h : a.flatMap (reprByte q) = b.flatMap (reprByte q)) : a = b := by
  have hne : ∀ z, reprByte q z ≠ [] := by
    intro z
    have := (reprByte_table q (by simpa [or_comm] using hq) z.toNat z.toNat_lt).2.2.1
    rwa [UInt8.ofNat_toNat] at this
  induction a generalizing b with
  | nil =>
    cases b with
    | nil => rfl
    | cons y b => rw [List.flatMap_nil, List.flatMap_cons] at h; exact absurd (List.append_eq_nil_iff.1 h.symm).1 (hne y)
  | cons x a ih =>
    cases b with
    | nil => rw [List.flatMap_nil, List.flatMap_cons] at h; exact absurd (List.append_eq_nil_iff.1 h).1 (hne x)
    | cons y b =>
      rw [List.flatMap_cons, List.flatMap_cons] at h
      obtain ⟨rfl, h2⟩ := reprByte_inj hq h
      rw [ih h2]

theorem reprBytes_inj {a b : Bytes} (h : reprBytes a = reprBytes b) : a = b := by
  unfold reprBytes at h
  have hq : ∀ c : Bytes, (if (39 : UInt8) ∈ c ∧ (34 : UInt8) ∉ c then 34 else 39) = 34 ∨ (if (39 : UInt8) ∈ c ∧ (34 : UInt8) ∉ c then 34 else 39) = 39 := by
    intro c; split <;> simp
  have ha := hq a
  have hb := hq b
  simp only at h
  generalize (if (39 : UInt8) ∈ a ∧ (34 : UInt8) ∉ a then 34 else 39) = p at *
  generalize (if (39 : UInt8) ∈ b ∧ (34 : UInt8) ∉ b then 34 else 39) = q at *
  have h1 := (List.cons.inj (List.cons.inj h).2)
  have hpq : p = q := by
    rcases ha with rfl | rfl <;> rcases hb with rfl | rfl
    · rfl
    · exact absurd h1.1 (by decide)
    · exact absurd h1.1 (by decide)
    · rfl
  subst hpq
  exact reprBody_inj ha (List.append_cancel_right h1.2)

theorem repr_oneLine (v : ObjVal) (h : ∀ s, v = .str s → OneLine s) : OneLine v.repr := by
  cases v with
  | int i => exact int_oneLine i
  | bool b => cases b <;> (unfold OneLine ObjVal.repr; decide)
  | str s => exact .cons (by decide) (.append (h s rfl) (by unfold OneLine; decide))
  | bytes b => exact reprBytes_oneLine b
  | other n => exact show '\n' ∉ "<object>".toList by decide

theorem hundredths_oneLine (q : Nat) : OneLine (hundredthsText q) := by
  unfold hundredthsText
  have h1 : Nat.digitChar (q % 100 / 10) ≠ '\n' := digit_not_nl (digitChar_props _ (by omega)).1
  have h2 : Nat.digitChar (q % 10) ≠ '\n' := digit_not_nl (digitChar_props _ (by omega)).1
  refine .append (nat_oneLine _) (.cons (by decide) ?_)
  split
  · exact .cons h1 (by simp [OneLine])
  · exact .cons h1 (.cons h2 (by simp [OneLine]))

theorem prettyLoop_oneLine (n : Int) (l : List (Char × Nat)) (h : ∀ x ∈ l, x.1 ≠ '\n') (t : List Char) (ht : prettyLoop n l = some t) :
    OneLine t := by
  induction l with
  | nil => cases ht
  | cons x l ih =>
    obtain ⟨c, k⟩ := x
    unfold prettyLoop at ht
    split at ht
    · exact ih (fun y hy => h y (List.mem_cons_of_mem _ hy)) ht
    · cases ht
      exact .append (hundredths_oneLine _) (.cons (h _ List.mem_cons_self) (by simp [OneLine]))

theorem doublePretty_oneLine (n : Int) : OneLine (doublePrettySize n) := by
  unfold doublePrettySize
  refine .append (.append (.append ?_ (by unfold OneLine; decide)) (int_oneLine n)) (by unfold OneLine; decide)
  cases h : prettySize n with
  | none => unfold OneLine Option.getD; decide
  | some t =>
    unfold prettySize at h
    split at h
    · cases h; unfold OneLine; decide
    · exact prettyLoop_oneLine _ _ (by decide +kernel) t h

theorem shown_oneLine (bs : List String) (key : String) (v : ObjVal) (h : ∀ s, v = .str s → OneLine s) : OneLine (shownValue bs key v) := by
  unfold shownValue
  split
  · exact repr_oneLine v h
  · cases v with
    | int i => exact doublePretty_oneLine i
    | _ => exact repr_oneLine _ h

theorem doublePretty_inj {m n : Int} (h : doublePrettySize m = doublePrettySize n) : m = n := by
  unfold doublePrettySize at h
  have h1 := List.append_cancel_right h
  -- the digits (and the sign) are what precedes the end, back to the bracket
  have key : ∀ (a b : List Char) (i j : Int), a ++ " (".toList ++ (toString i).toList = b ++ " (".toList ++ (toString j).toList → i = j := by
    intro a b i j e
    have hp : ∀ i : Int, ∀ c ∈ (toString i).toList, (c != '(') = true := by
      intro i c hc
      rw [int_text] at hc
      have hd : ∀ c ∈ (toString i.natAbs).toList, (c != '(') = true := by
        intro c hc
        have := (decimal_toString i.natAbs).2.1 c hc
        by_cases h : c = '('
        · subst h; revert this; decide
        · simpa using h
      split at hc
      · rcases List.mem_cons.1 hc with rfl | hc
        · decide
        · exact hd c hc
      · exact hd c hc
    have tw : ∀ (a : List Char) (i : Int), ((a ++ " (".toList ++ (toString i).toList).reverse.takeWhile (· != '(')).reverse = (toString i).toList := by
      intro a i
      rw [List.reverse_append, List.takeWhile_append_of_pos (by intro c hc; exact hp i c (List.mem_reverse.1 hc)), List.reverse_append]
      simp
    have := tw a i
    rw [e, tw b j] at this
    exact (int_text_inj this).symm
  exact key _ _ m n h1

theorem doublePretty_ne_repr (n : Int) : doublePrettySize n ≠ (ObjVal.int (-1)).repr := by
  intro h
  have := congrArg List.getLast? h
  unfold doublePrettySize at this
  rw [List.getLast?_append, show "B)".toList.getLast? = some ')' from by decide,
    show (ObjVal.int (-1)).repr.getLast? = some '1' from by decide, Option.some_or] at this
  revert this
  decide

theorem shown_bytes_inj {bs : List String} {key : String} {i j : Int} (h : shownValue bs key (.int i) = shownValue bs key (.int j)) : i = j := by
  unfold shownValue at h
  by_cases hk : key ∉ bs
  · rw [if_pos (.inl hk), if_pos (.inl hk)] at h; exact int_text_inj h
  · simp only [hk, false_or] at h
    split at h <;> split at h
    · rename_i h1 h2; cases h1; cases h2; rfl
    · rename_i h1 _; rw [h1] at h; exact absurd h.symm (doublePretty_ne_repr _)
    · rename_i _ h1; rw [h1] at h; exact absurd h (doublePretty_ne_repr _)
    · exact doublePretty_inj h

theorem joinText_indent (ind : List Char) (t : List Char) (ts : List (List Char)) :
    ind ++ joinText ('\n' :: ind) (t :: ts) = Spec.joinedLines ((t :: ts).map (ind ++ ·)) := by
  induction ts generalizing t with
  | nil => simp [joinText, Spec.joinedLines]
  | cons u us ih =>
    rw [List.map_cons, List.map_cons, Spec.joinedLines]
    have := ih u
    rw [List.map_cons] at this
    rw [← this]
    simp [joinText]

/-- The lines of the printed form of an object: its class name, then one indented line for each key. -/
theorem pformat_lines (o : MapObj) (hname : OneLine o.cls.name.toList) (hkeys : ∀ k ∈ o.iter, OneLine k.toList) (hne : o.iter ≠ [])
    (hv : ∀ k s, o.vars k = .str s → OneLine s) :
    messageLines o.pformat = (o.cls.name.toList ++ [':']) ::
      o.iter.map (fun k => "    ".toList ++ (k.toList ++ ": ".toList ++ shownValue o.cls.bytes_attributes k (o.vars k))) := by
  have hp : o.pformat = Spec.joinedLines ((o.cls.name.toList ++ [':']) ::
      o.iter.map (fun k => "    ".toList ++ (k.toList ++ ": ".toList ++ shownValue o.cls.bytes_attributes k (o.vars k)))) := by
    cases hi : o.iter with
    | nil => exact absurd hi hne
    | cons k ks =>
      unfold MapObj.pformat
      have := joinText_indent "    ".toList (k.toList ++ ": ".toList ++ shownValue o.cls.bytes_attributes k (o.vars k))
        (ks.map (fun key => key.toList ++ ": ".toList ++ shownValue o.cls.bytes_attributes key (o.vars key)))
      rw [hi, List.map_cons, List.map_cons, Spec.joinedLines]
      rw [List.map_cons, List.map_map] at this
      simp only [show (List.replicate 4 ' ') = "    ".toList from rfl, List.append_assoc] at this ⊢
      rw [this]
      simp [Function.comp_def]
  rw [hp, messageLines, splitNL_joined _ (by simp) ?_, List.filter_eq_self.2]
  · intro l hl
    rcases List.mem_cons.1 hl with rfl | hl
    · simp
    · obtain ⟨k, -, rfl⟩ := List.mem_map.1 hl; simp
  · intro l hl
    rcases List.mem_cons.1 hl with rfl | hl
    · exact OneLine.append hname (.cons (by decide) (by simp [OneLine]))
    · obtain ⟨k, hk, rfl⟩ := List.mem_map.1 hl
      exact OneLine.append (by unfold OneLine; decide) (.append (.append (hkeys k hk) (by unfold OneLine; decide))
        (shown_oneLine _ _ _ (hv k)))

end Bloscpack
