import Verif.Spec.Mapping
import Verif.Lemmas.Prim
/-
C63: headers and argument objects as mappings.
-/
namespace Bloscpack

/-- the variable is the same before and after, whatever the outcome -/
def KeepsVar {α : Type} (key : String) (m : Proc MapObj α) : Prop := ∀ o, (m o).2.cls = o.cls ∧ (m o).2.vars key = o.vars key

theorem setitem_keeps {key k : String} {v : ObjVal} (h : k ≠ key) : KeepsVar key (objSetitem k v) := by
  intro o
  unfold objSetitem
  split
  · exact ⟨rfl, rfl⟩
  · exact ⟨rfl, by simp [MapObj.setattr, Ne.symm h]⟩

theorem objPop_state (k : String) (d : Option ObjVal) (o : MapObj) : (objPop k d o).2 = o := by
  unfold objPop
  rw [Proc.bind_of_ok (show Proc.get o = (.ok o, o) from rfl)]
  cases o.getitem k with
  | error e => cases d <;> rfl
  | ok v => rfl

theorem objPopitem_state (o : MapObj) : (objPopitem o).2 = o := by
  unfold objPopitem
  rw [Proc.bind_of_ok (show Proc.get o = (.ok o, o) from rfl)]
  cases hi : o.iter with
  | nil => rfl
  | cons k t =>
    show ((Proc.ofExcept (o.getitem k) >>= fun value => objDelitem k >>= fun _ => Proc.pure (k, value)) o).2 = o
    cases hg : o.getitem k with
    | error e => rw [Proc.bind_of_error (Proc.ofExcept_apply _ _)]
    | ok v => rw [Proc.bind_of_ok (Proc.ofExcept_apply _ _)]; rfl

theorem objClear_loop_state (n : Nat) (o : MapObj) : (objClear.loop n o).2 = o := by
  induction n generalizing o with
  | zero => rfl
  | succ n ih =>
    unfold objClear.loop
    have := objPopitem_state o
    split
    · rename_i h; rw [h] at this; rw [ih]; exact this
    · rename_i h; rw [h] at this; exact this
    · rename_i h; rw [h] at this; exact this

theorem objClear_state (o : MapObj) : (objClear o).2 = o := objClear_loop_state _ o

theorem objUpdate_keeps {key : String} {items : List (String × ObjVal)} (h : key ∉ items.map (·.1)) : KeepsVar key (objUpdate items) := by
  induction items with
  | nil => exact fun o => ⟨rfl, rfl⟩
  | cons x rest ih =>
    obtain ⟨k, v⟩ := x
    simp only [List.map_cons, List.mem_cons, not_or] at h
    intro o
    have h1 := setitem_keeps (v := v) (Ne.symm h.1) o
    unfold objUpdate
    generalize hq : objSetitem k v o = q at h1
    obtain ⟨r, o'⟩ := q
    cases r with
    | error e => rw [Proc.bind_of_error hq]; exact h1
    | ok u =>
      rw [Proc.bind_of_ok hq]
      have h2 := ih h.2 o'
      exact ⟨h2.1.trans h1.1, h2.2.trans h1.2⟩

theorem objUpdate_cls (items : List (String × ObjVal)) (o : MapObj) : (objUpdate items o).2.cls = o.cls := by
  induction items generalizing o with
  | nil => rfl
  | cons x rest ih =>
    obtain ⟨k, v⟩ := x
    unfold objUpdate
    have h1 : (objSetitem k v o).2.cls = o.cls := by unfold objSetitem; split <;> rfl
    generalize hq : objSetitem k v o = q at h1
    obtain ⟨r, o'⟩ := q
    cases r with
    | error e => rw [Proc.bind_of_error hq]; exact h1
    | ok u => rw [Proc.bind_of_ok hq, ih]; exact h1

theorem objSetdefault_state (k : String) (v : ObjVal) (o : MapObj) : (objSetdefault k v o).2 = o := by
  unfold objSetdefault
  rw [Proc.bind_of_ok (show Proc.get o = (.ok o, o) from rfl)]
  cases hg : o.getitem k with
  | ok v => rfl
  | error e =>
    have hk : k ∉ o.cls.attributes := by
      intro hk; unfold MapObj.getitem at hg; rw [if_neg (by simpa using hk)] at hg; cases hg
    show ((objSetitem k v >>= fun _ => Proc.pure v) o).2 = o
    rw [Proc.bind_of_error (show objSetitem k v o = (.error .keyError, o) by unfold objSetitem; rw [if_pos hk])]

/-- the object with number `i` before and after an operation -/
theorem run_at (op : ObjOp) (heap : List MapObj) (i : Nat) (o : MapObj) (h : heap[i]? = some o) :
    ∃ o', (op.run heap).2[i]? = some o' ∧ o'.cls = o.cls ∧ ∀ key, ¬ Spec.Assigns i key op → o'.vars key = o.vars key := by
  have hi : i < heap.length := by
    rcases Nat.lt_or_ge i heap.length with h' | h'
    · exact h'
    · rw [List.getElem?_eq_none h'] at h; cases h
  have onObj_at : ∀ {α : Type} (j : Nat) (m : Proc MapObj α),
      ∃ o', (onObj j m heap).2[i]? = some o' ∧ ((j = i ∧ o' = (m o).2) ∨ (j ≠ i ∧ o' = o)) := by
    intro α j m
    unfold onObj
    cases hj : heap[j]? with
    | none => exact ⟨o, h, .inr ⟨(fun e => by subst e; rw [h] at hj; cases hj), rfl⟩⟩
    | some x =>
      by_cases hji : j = i
      · subst hji
        rw [h] at hj
        cases hj
        exact ⟨(m o).2, by simp [List.getElem?_set, hi], .inl ⟨rfl, rfl⟩⟩
      · exact ⟨o, by simp [List.getElem?_set, hji, h], .inr ⟨hji, rfl⟩⟩
  have frame : ∀ {α : Type} (j : Nat) (m : Proc MapObj α), (∀ x, (m x).2 = x) →
      ∃ o', (onObj j m heap).2[i]? = some o' ∧ o' = o := by
    intro α j m hm
    obtain ⟨o', h1, ⟨_, h2⟩ | ⟨_, h2⟩⟩ := onObj_at j m
    · exact ⟨o', h1, by rw [h2, hm]⟩
    · exact ⟨o', h1, h2⟩
  cases op with
  | setitem j k v =>
    obtain ⟨o', h1, ⟨rfl, h2⟩ | ⟨_, h2⟩⟩ := onObj_at j (objSetitem k v)
    · refine ⟨o', h1, ?_, fun key hk => ?_⟩
      · rw [h2]; unfold objSetitem; split <;> rfl
      · rw [h2]; exact (setitem_keeps (fun e => hk ⟨rfl, e⟩) o).2
    · exact ⟨o', h1, by rw [h2], fun _ _ => by rw [h2]⟩
  | setattr j k v =>
    obtain ⟨o', h1, ⟨rfl, h2⟩ | ⟨_, h2⟩⟩ := onObj_at j (Proc.modify (fun x => x.setattr k v))
    · refine ⟨o', h1, by rw [h2]; rfl, fun key hk => ?_⟩
      rw [h2]
      show (if key = k then v else o.vars key) = o.vars key
      rw [if_neg (fun e => hk ⟨rfl, e.symm⟩)]
    · exact ⟨o', h1, by rw [h2], fun _ _ => by rw [h2]⟩
  | delitem j k =>
    obtain ⟨o', h1, h2⟩ := frame j (objDelitem k) (fun _ => rfl)
    exact ⟨o', h1, by rw [h2], fun _ _ => by rw [h2]⟩
  | pop j k d =>
    obtain ⟨o', h1, h2⟩ := frame j (objPop k d) (objPop_state k d)
    exact ⟨o', h1, by rw [h2], fun _ _ => by rw [h2]⟩
  | popitem j =>
    obtain ⟨o', h1, h2⟩ := frame j objPopitem objPopitem_state
    exact ⟨o', h1, by rw [h2], fun _ _ => by rw [h2]⟩
  | clear j =>
    obtain ⟨o', h1, h2⟩ := frame j objClear objClear_state
    exact ⟨o', h1, by rw [h2], fun _ _ => by rw [h2]⟩
  | update j items =>
    obtain ⟨o', h1, ⟨rfl, h2⟩ | ⟨_, h2⟩⟩ := onObj_at j (objUpdate items)
    · exact ⟨o', h1, by rw [h2]; exact objUpdate_cls items o, fun key hk => by
        rw [h2]; exact (objUpdate_keeps (fun e => hk ⟨rfl, e⟩) o).2⟩
    · exact ⟨o', h1, by rw [h2], fun _ _ => by rw [h2]⟩
  | setdefault j k v =>
    obtain ⟨o', h1, h2⟩ := frame j (objSetdefault k v) (objSetdefault_state k v)
    exact ⟨o', h1, by rw [h2], fun _ _ => by rw [h2]⟩
  | copy j =>
    refine ⟨o, ?_, rfl, fun _ _ => rfl⟩
    show (match heap[j]? with | none => (Except.ok (), heap) | some x => (Except.ok (), heap ++ [x.copy]) : Except Err Unit × List MapObj).2[i]? = some o
    split
    · exact h
    · simp only; rw [List.getElem?_append_left hi]; exact h

theorem runOps_at (ops : List ObjOp) (heap : List MapObj) (i : Nat) (o : MapObj) (h : heap[i]? = some o) :
    ∃ o', (runOps ops heap)[i]? = some o' ∧ o'.cls = o.cls ∧
      ∀ key, (∀ op ∈ ops, ¬ Spec.Assigns i key op) → o'.vars key = o.vars key := by
  induction ops generalizing heap o with
  | nil => exact ⟨o, h, rfl, fun _ _ => rfl⟩
  | cons op ops ih =>
    obtain ⟨o1, h1, h2, h3⟩ := run_at op heap i o h
    obtain ⟨o2, h4, h5, h6⟩ := ih _ o1 h1
    exact ⟨o2, h4, h5.trans h2, fun key hk =>
      (h6 key (fun op' hop => hk op' (List.mem_cons_of_mem _ hop))).trans (h3 key (hk op List.mem_cons_self))⟩

theorem getitem_known {o : MapObj} {k : String} (h : k ∈ o.cls.attributes) : o.getitem k = .ok (o.vars k) := by
  unfold MapObj.getitem; rw [if_neg (by simpa using h)]

theorem getitem_unknown {o : MapObj} {k : String} (h : k ∉ o.cls.attributes) : o.getitem k = .error .keyError := by
  unfold MapObj.getitem; rw [if_pos h]

theorem getitem_congr {o o' : MapObj} (hc : o'.cls = o.cls) {k : String} (hv : o'.vars k = o.vars k) : o'.getitem k = o.getitem k := by
  unfold MapObj.getitem; rw [hc, hv]

/-- C63: no history of operations changes the keys of an object, their order or their number. -/
theorem C63_keys (ops : List ObjOp) (heap : List MapObj) (i : Nat) (o : MapObj) (h : heap[i]? = some o) :
    ∃ o', (runOps ops heap)[i]? = some o' ∧ o'.iter = o.iter ∧ o'.len = o.iter.length ∧ (∀ key, o'.contains key = true ↔ key ∈ o.iter) ∧
      ∀ key, (∃ v, o'.getitem key = .ok v) ↔ key ∈ o.iter := by
  obtain ⟨o', h1, h2, -⟩ := runOps_at ops heap i o h
  refine ⟨o', h1, by unfold MapObj.iter; rw [h2], by unfold MapObj.len MapObj.iter; rw [h2], fun key => ?_, fun key => ?_⟩
  · unfold MapObj.contains
    by_cases hk : key ∈ o.cls.attributes
    · rw [getitem_known (by rw [h2]; exact hk)]; exact ⟨fun _ => hk, fun _ => rfl⟩
    · rw [getitem_unknown (by rw [h2]; exact hk)]; exact ⟨fun h => (by cases h), fun h => absurd h hk⟩
  · by_cases hk : key ∈ o.cls.attributes
    · rw [getitem_known (by rw [h2]; exact hk)]; exact ⟨fun _ => hk, fun _ => ⟨_, rfl⟩⟩
    · rw [getitem_unknown (by rw [h2]; exact hk)]
      exact ⟨fun ⟨_, e⟩ => (by cases e), fun e => absurd e hk⟩

/-- C63: what was not assigned stays as it is, whatever is done to this object and to others. -/
theorem C63_kept (ops : List ObjOp) (heap : List MapObj) (i : Nat) (key : String) (hi : i < heap.length)
    (h : ∀ op ∈ ops, ¬ Spec.Assigns i key op) : readItem (runOps ops heap) i key = readItem heap i key := by
  obtain ⟨o', h1, h2, h3⟩ := runOps_at ops heap i _ (List.getElem?_eq_getElem hi)
  unfold readItem
  rw [h1, List.getElem?_eq_getElem hi]
  simp only [Option.map_some]
  rw [getitem_congr h2 (h3 key h)]

theorem runOps_append (a b : List ObjOp) (heap : List MapObj) : runOps (a ++ b) heap = runOps b (runOps a heap) := by
  induction a generalizing heap with
  | nil => rfl
  | cons x a ih => exact ih _

theorem run_length (op : ObjOp) (heap : List MapObj) : heap.length ≤ (op.run heap).2.length := by
  have : ∀ {α : Type} (j : Nat) (m : Proc MapObj α), heap.length ≤ (onObj j m heap).2.length := by
    intro α j m
    unfold onObj
    split <;> simp
  cases op with
  | copy j =>
    show _ ≤ (match heap[j]? with | none => (Except.ok (), heap) | some x => (Except.ok (), heap ++ [x.copy]) : Except Err Unit × List MapObj).2.length
    split <;> simp
  | _ => exact this _ _

theorem runOps_length (ops : List ObjOp) (heap : List MapObj) : heap.length ≤ (runOps ops heap).length := by
  induction ops generalizing heap with
  | nil => exact Nat.le_refl _
  | cons op ops ih => exact Nat.le_trans (run_length op heap) (ih _)

/-- C63: `obj[key]` gives the value assigned last, if `key` is one of the object's keys, and `KeyError` otherwise. -/
theorem C63_last (before after : List ObjOp) (heap : List MapObj) (i : Nat) (o : MapObj) (key : String) (v : ObjVal) (op : ObjOp)
    (ho : heap[i]? = some o) (hop : op = .setitem i key v ∨ op = .setattr i key v)
    (hafter : ∀ op' ∈ after, ¬ Spec.Assigns i key op') :
    readItem (runOps (before ++ op :: after) heap) i key = some (if key ∈ o.iter then .ok v else .error .keyError) := by
  rw [runOps_append]
  obtain ⟨o1, h1, h2, -⟩ := runOps_at before heap i o ho
  generalize runOps before heap = heap1 at *
  have hi : i < heap1.length := by
    rcases Nat.lt_or_ge i heap1.length with h' | h'
    · exact h'
    · rw [List.getElem?_eq_none h'] at h1; cases h1
  have hrun : ∃ o2, (op.run heap1).2[i]? = some o2 ∧ o2.cls = o.cls ∧ (key ∈ o.iter → o2.vars key = v) := by
    rcases hop with rfl | rfl
    · refine ⟨(objSetitem key v o1).2, ?_, ?_, fun hk => ?_⟩
      · show (onObj i (objSetitem key v) heap1).2[i]? = _
        unfold onObj; rw [h1]; simp [List.getElem?_set, hi]
      · unfold objSetitem; split <;> exact h2
      · unfold objSetitem
        rw [if_neg (by rw [h2]; exact fun e => e hk)]
        simp [MapObj.setattr]
    · refine ⟨o1.setattr key v, ?_, h2, fun _ => by simp [MapObj.setattr]⟩
      show (onObj i (Proc.modify (fun x => x.setattr key v)) heap1).2[i]? = _
      unfold onObj
      rw [h1]
      simp [List.getElem?_set, hi, Proc.modify]
  obtain ⟨o2, h3, h4, h5⟩ := hrun
  obtain ⟨o3, h6, h7, h8⟩ := runOps_at after (op.run heap1).2 i o2 h3
  unfold readItem
  rw [show runOps (op :: after) heap1 = runOps after (op.run heap1).2 from rfl, h6]
  simp only [Option.map_some]
  by_cases hk : key ∈ o.iter
  · rw [if_pos hk, getitem_known (by rw [h7, h4]; exact hk), h8 key hafter, h5 hk]
  · rw [if_neg hk, getitem_unknown (by rw [h7, h4]; exact hk)]

/-- C63: a copy starts with the values of the original, and from then on the two are independent: the copy's attributes have
the original's values at the time of the copy until they are assigned on the copy. (The original keeps its own by `C63_kept`.) -/
theorem C63_copy (before after : List ObjOp) (heap : List MapObj) (i : Nat) (key : String) (hi : i < heap.length)
    (hafter : ∀ op ∈ after, ¬ Spec.Assigns (runOps before heap).length key op) :
    readItem (runOps (before ++ .copy i :: after) heap) (runOps before heap).length key = readItem (runOps before heap) i key := by
  rw [runOps_append]
  have hi' := Nat.lt_of_lt_of_le hi (runOps_length before heap)
  generalize runOps before heap = heap1 at *
  have hc : (ObjOp.run (.copy i) heap1).2 = heap1 ++ [heap1[i].copy] := by
    show (match heap1[i]? with | none => (Except.ok (), heap1) | some x => (Except.ok (), heap1 ++ [x.copy]) : Except Err Unit × List MapObj).2 = _
    rw [List.getElem?_eq_getElem hi']
  rw [show runOps (.copy i :: after) heap1 = runOps after (ObjOp.run (.copy i) heap1).2 from rfl, hc,
    C63_kept after _ _ key (by simp) hafter]
  unfold readItem
  simp [List.getElem?_eq_getElem hi', MapObj.copy]

/-- C63: deleting is refused with `NotImplementedError` in all its forms and changes nothing; unknown keys give `KeyError` (or the
default given). -/
theorem C63_refused (o : MapObj) (key : String) (v : ObjVal) (d : Option ObjVal) :
    objDelitem key o = (.error .notImplementedError, o) ∧
    (key ∈ o.iter → objPop key d o = (.error .notImplementedError, o)) ∧
    (o.iter ≠ [] → objPopitem o = (.error .notImplementedError, o) ∧ objClear o = (.error .notImplementedError, o)) ∧
    (key ∉ o.iter → objSetitem key v o = (.error .keyError, o) ∧ objSetdefault key v o = (.error .keyError, o) ∧
      o.getitem key = .error .keyError ∧ o.get key v = v ∧ o.contains key = false ∧
      objPop key d o = (match d with | none => .error .keyError | some x => .ok x, o)) := by
  have hpop : o.iter ≠ [] → objPopitem o = (.error .notImplementedError, o) := by
    intro hne
    cases hi : o.iter with
    | nil => exact absurd hi hne
    | cons k t =>
      unfold objPopitem
      rw [Proc.bind_of_ok (show Proc.get o = (.ok o, o) from rfl), hi]
      show ((Proc.ofExcept (o.getitem k) >>= fun value => objDelitem k >>= fun _ => Proc.pure (k, value)) o) = _
      have hk : k ∈ o.cls.attributes := by
        have : k ∈ o.iter := by rw [hi]; exact List.mem_cons_self
        exact this
      rw [Proc.bind_of_ok (Proc.ofExcept_apply _ _ |>.trans (by rw [getitem_known hk]))]
      rfl
  refine ⟨rfl, fun hk => ?_, fun hne => ⟨hpop hne, ?_⟩, fun hk => ?_⟩
  · unfold objPop
    rw [Proc.bind_of_ok (show Proc.get o = (.ok o, o) from rfl), getitem_known hk]
    rfl
  · unfold objClear
    show objClear.loop (o.len + 1) o = _
    unfold objClear.loop
    rw [hpop hne]
  · have hs : objSetitem key v o = (.error .keyError, o) := by unfold objSetitem; rw [if_pos (show key ∉ o.cls.attributes from hk)]
    refine ⟨hs, ?_, getitem_unknown hk, ?_, ?_, ?_⟩
    · unfold objSetdefault
      rw [Proc.bind_of_ok (show Proc.get o = (.ok o, o) from rfl), getitem_unknown hk]
      show (objSetitem key v >>= fun _ => Proc.pure v) o = _
      rw [Proc.bind_of_error hs]
    · unfold MapObj.get; rw [getitem_unknown hk]
    · unfold MapObj.contains; rw [getitem_unknown hk]
    · unfold objPop
      rw [Proc.bind_of_ok (show Proc.get o = (.ok o, o) from rfl), getitem_unknown hk]
      cases d <;> rfl

/-- C63: `update` with known keys assigns them all, the last value given for a key counts; at the first unknown key it raises
`KeyError`, and what came before is assigned. -/
theorem C63_update (items : List (String × ObjVal)) (o : MapObj) :
    ((∀ x ∈ items, x.1 ∈ o.iter) →
      (objUpdate items o).1 = .ok () ∧
      ∀ key, ((objUpdate items o).2).getitem key =
        match items.reverse.find? (fun x => x.1 == key) with
        | some x => .ok x.2
        | none => o.getitem key) ∧
    ∀ good bad rest, items = good ++ bad :: rest → (∀ x ∈ good, x.1 ∈ o.iter) → bad.1 ∉ o.iter →
      objUpdate items o = (.error .keyError, (objUpdate good o).2) := by
  refine ⟨?_, ?_⟩
  · intro hall
    induction items generalizing o with
    | nil => exact ⟨rfl, fun _ => rfl⟩
    | cons x rest ih =>
      obtain ⟨k, v⟩ := x
      have hk : k ∈ o.cls.attributes := hall (k, v) List.mem_cons_self
      have hs : objSetitem k v o = (.ok (), o.setattr k v) := by unfold objSetitem; rw [if_neg (by simpa using hk)]
      obtain ⟨h1, h2⟩ := ih (o.setattr k v) (fun x hx => hall x (List.mem_cons_of_mem _ hx))
      unfold objUpdate
      rw [Proc.bind_of_ok hs]
      refine ⟨h1, fun key => ?_⟩
      rw [h2 key, List.reverse_cons, List.find?_append]
      cases rest.reverse.find? (fun x => x.1 == key) with
      | some y => rfl
      | none =>
        by_cases hkey : k = key
        · subst hkey
          simp only [List.find?_cons, beq_self_eq_true, Option.none_or]
          exact (getitem_known (by exact hk)).trans (by simp [MapObj.setattr])
        · have : (k == key) = false := by simpa using hkey
          simp only [List.find?_cons, List.find?_nil, this, Option.none_or]
          exact getitem_congr (o := o) (o' := o.setattr k v) rfl (by simp [MapObj.setattr, Ne.symm hkey])
  · intro good bad rest he hgood hbad
    subst he
    induction good generalizing o with
    | nil =>
      obtain ⟨k, v⟩ := bad
      rw [List.nil_append]
      unfold objUpdate
      rw [Proc.bind_of_error (show objSetitem k v o = (.error .keyError, o) by unfold objSetitem; rw [if_pos (show k ∉ o.cls.attributes from hbad)])]
      rfl
    | cons x good ih =>
      obtain ⟨k, v⟩ := x
      have hk : k ∈ o.cls.attributes := hgood (k, v) List.mem_cons_self
      have hs : objSetitem k v o = (.ok (), o.setattr k v) := by unfold objSetitem; rw [if_neg (by simpa using hk)]
      rw [List.cons_append]
      unfold objUpdate
      rw [Proc.bind_of_ok hs, Proc.bind_of_ok hs]
      exact ih (o.setattr k v) (fun x hx => hgood x (List.mem_cons_of_mem _ hx)) hbad

/-- C63: two objects are equal exactly if they have the same keys with equal values; in particular an object equals its copy. -/
theorem C63_eq (o p : MapObj) : o.eq p = true ↔ (∀ k, k ∈ o.iter ↔ k ∈ p.iter) ∧ ∀ k ∈ o.iter, (o.vars k).eq (p.vars k) = true := by
  unfold MapObj.eq
  simp only [Bool.and_eq_true, List.all_eq_true, List.contains_iff_mem]
  refine ⟨fun ⟨h1, h2⟩ => ⟨fun k => ⟨fun hk => (h1 k hk).1, h2 k⟩, fun k hk => (h1 k hk).2⟩, fun ⟨h1, h2⟩ => ⟨fun k hk => ⟨(h1 k).1 hk, h2 k hk⟩, fun k hk => (h1 k).2 hk⟩⟩

theorem C63_copy_eq (o : MapObj) : o.copy.eq o = true ∧ o.eq o.copy = true := by
  have : ∀ v : ObjVal, v.eq v = true := by intro v; cases v <;> simp [ObjVal.eq]
  have h := (C63_eq o o).2 ⟨fun _ => Iff.rfl, fun k _ => this _⟩
  exact ⟨h, h⟩

/-- C63: what `**obj` passes on and `dict(obj)` contains: every key once, with its current value. For `BloscArgs` these are the
four arguments of `blosc.compress`. -/
theorem C63_items (o : MapObj) : o.items = o.iter.map (fun k => (k, .ok (o.vars k))) := by
  unfold MapObj.items
  exact List.map_congr_left (fun k hk => by rw [getitem_known hk])

theorem C63_blosc_args (a : BloscArgs) : a.obj.items =
    [("typesize", .ok (.int a.typesize)), ("clevel", .ok (.int a.clevel)), ("shuffle", .ok (.int a.shuffle)), ("cname", .ok (.str a.cname.toList))] := by
  rw [C63_items]; rfl

-- a history with a copy, assignments to both objects, refused and failing operations
example :
    let h := (BloscArgs.obj {})
    let ops := [.setitem 0 "clevel" (.int 3), .copy 0, .setitem 1 "clevel" (.int 9), .delitem 0 "clevel", .setitem 0 "level" (.int 1),
      .update 1 [("shuffle", .int 0), ("nonsense", .int 1), ("typesize", .int 4)]]
    readItem (runOps ops [h]) 0 "clevel" = some (.ok (.int 3)) ∧ readItem (runOps ops [h]) 1 "clevel" = some (.ok (.int 9)) ∧
    readItem (runOps ops [h]) 1 "shuffle" = some (.ok (.int 0)) ∧ readItem (runOps ops [h]) 1 "typesize" = some (.ok (.int 8)) ∧
    readItem (runOps ops [h]) 0 "level" = some (.error .keyError) := by decide +kernel

end Bloscpack
