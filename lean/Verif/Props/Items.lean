import Verif.Items
/-!
# Properties of list items (C40)
-/

namespace PyFLP

namespace Spec

/-- An edit: position of the item, key, new value. -/
abbrev Edit := Nat × String × Option LV

/-- What an edit should do to the records. -/
def applyEdit (l : List Rec) (e : Edit) : List Rec := l.modify e.1 fun r => Rec.put r e.2.1 e.2.2

/-- A program that parsed a list event with the records `l`, fetched item objects any
number of times (`hs` are all item objects it has), and did the edits `es`. -/
inductive IReach (l : List Rec) : ListObj → List Item → List Edit → Prop
  | parsed : IReach l (.parse l) [] []
  | fetch {s hs es} (r : IReach l s hs es) : IReach l s (hs ++ s.items) es
  | edit {s hs es it} (r : IReach l s hs es) (h : it ∈ hs) (key : String) (x : Option LV) :
      IReach l (s.set it key x).1 hs (es ++ [(it.index, key, x)])

end Spec

open Spec

theorem applyEdits_length (es : List Edit) (l : List Rec) : (es.foldl applyEdit l).length = l.length := by
  induction es generalizing l with
  | nil => rfl
  | cons e es ih => rw [List.foldl_cons, ih]; simp [applyEdit]

theorem ireach_inv {l : List Rec} {s : ListObj} {hs : List Item} {es : List Edit} (r : IReach l s hs es) :
    s.objs = es.foldl applyEdit l ∧ s.list = List.range l.length ∧
    ∀ it ∈ hs, it.ref = it.index ∧ it.index < l.length := by
  induction r with
  | parsed => exact ⟨rfl, rfl, by simp⟩
  | fetch r ih =>
    obtain ⟨h1, h2, h3⟩ := ih
    refine ⟨h1, h2, ?_⟩
    intro it hit
    rcases List.mem_append.1 hit with h | h
    · exact h3 it h
    · unfold ListObj.items at h
      rw [h2] at h
      obtain ⟨⟨a, i⟩, hx, rfl⟩ := List.mem_map.1 h
      obtain ⟨g1, g2⟩ := List.getElem?_eq_some_iff.1 (List.mem_zipIdx_iff_getElem?.1 hx)
      simp only [List.length_range] at g1
      simp only [List.getElem_range] at g2
      exact ⟨g2.symm, g1⟩
  | @edit s hs es it r hm key x ih =>
    obtain ⟨h1, h2, h3⟩ := ih
    obtain ⟨g1, g2⟩ := h3 it hm
    have hlen : it.index < s.list.length := by rw [h2]; simpa using g2
    have hset : (s.set it key x).1 = ⟨s.objs.set it.ref (Rec.put (s.objs.getD it.ref []) key x),
        s.list.set it.index it.ref⟩ := by
      unfold ListObj.set
      dsimp only
      rw [if_pos hlen]
    refine ⟨?_, ?_, h3⟩
    · rw [hset, List.foldl_append, ← h1]
      simp only [List.foldl_cons, List.foldl_nil, applyEdit]
      have hlt : it.index < s.objs.length := by rw [h1, applyEdits_length]; exact g2
      rw [g1]
      apply List.ext_getElem
      · simp
      · intro i i1 i2
        rw [List.getElem_set, List.getElem_modify]
        split
        · next e => subst e; simp [List.getD_eq_getElem?_getD, hlt]
        · rfl
    · rw [hset]
      dsimp only
      rw [h2, g1]
      apply List.ext_getElem
      · simp
      · intro i i1 i2
        rw [List.getElem_set]
        split
        · next e => simp [e]
        · rfl

theorem ireach_value {l : List Rec} {s : ListObj} {hs : List Item} {es : List Edit} (r : IReach l s hs es) :
    s.value = es.foldl applyEdit l := by
  obtain ⟨h1, h2, _⟩ := ireach_inv r
  unfold ListObj.value
  rw [h1, h2]
  apply List.ext_getElem
  · simp [applyEdits_length]
  · intro i i1 i2
    simp [List.getD_eq_getElem?_getD, i2]

theorem applyEdits_get (es : List Edit) (l : List Rec) (i : Nat) :
    (es.foldl applyEdit l)[i]? =
      l[i]?.map fun r => (es.filter fun e => e.1 = i).foldl (fun r e => Rec.put r e.2.1 e.2.2) r := by
  induction es generalizing l with
  | nil => simp
  | cons e es ih =>
    rw [List.foldl_cons, ih, applyEdit, List.getElem?_modify, List.filter_cons]
    by_cases h : e.1 = i
    · simp [h, Function.comp_def]
    · simp [h]

/-- C40. After any edits through any item objects, the event has as many records as before,
and the record at position `i` is the original one with exactly the edits made through
items at position `i`, in order: records of other items are never touched, and edits
through different objects for the same item act on the same record. -/
theorem C40_edits {l : List Rec} {s : ListObj} {hs : List Item} {es : List Edit} (r : IReach l s hs es) :
    s.value.length = l.length ∧
    ∀ i : Nat, s.value[i]? =
      l[i]?.map fun r => (es.filter fun e => e.1 = i).foldl (fun r e => Rec.put r e.2.1 e.2.2) r := by
  rw [ireach_value r]
  exact ⟨applyEdits_length es l, fun i => applyEdits_get es l i⟩

theorem lookup_put (r : Rec) (k : String) (v : Option LV) : Rec.lookup (Rec.put r k v) k = some v ∧
    ∀ k', k' ≠ k → Rec.lookup (Rec.put r k v) k' = Rec.lookup r k' := by
  have app : ∀ (r : Rec) (p : String × Option LV) k', Rec.lookup (r ++ [p]) k' =
      if (Rec.lookup r k').isSome then Rec.lookup r k' else if p.1 = k' then some p.2 else none := by
    intro r p k'
    induction r with
    | nil => simp [Rec.lookup]
    | cons a r ih =>
      obtain ⟨n, o⟩ := a
      simp only [List.cons_append, Rec.lookup]
      by_cases e : n = k'
      · simp [e]
      · simp only [if_neg e]; exact ih
  have upd : ∀ r : Rec, (Rec.lookup r k).isSome → Rec.lookup (Rec.update r k v) k = some v := by
    intro r
    induction r with
    | nil => intro h; cases h
    | cons a r ih =>
      obtain ⟨n, o⟩ := a
      simp only [Rec.lookup, Rec.update]
      by_cases e : n = k
      · simp [e, Rec.lookup]
      · simp only [if_neg e, Rec.lookup]; exact ih
  have upd' : ∀ (r : Rec) (k' : String), k' ≠ k → Rec.lookup (Rec.update r k v) k' = Rec.lookup r k' := by
    intro r k' hk
    induction r with
    | nil => rfl
    | cons a r ih =>
      obtain ⟨n, o⟩ := a
      simp only [Rec.update]
      by_cases e : n = k
      · rw [if_pos e]; simp [Rec.lookup, show n ≠ k' from fun h => hk (h.symm.trans e)]
      · rw [if_neg e]; simp only [Rec.lookup]; rw [ih]
  unfold Rec.put
  by_cases e : (Rec.lookup r k).isSome
  · rw [if_pos e]
    exact ⟨upd r e, fun k' hk => upd' r k' hk⟩
  · rw [if_neg e]
    refine ⟨?_, fun k' hk => ?_⟩
    · rw [app, if_neg e]; simp
    · rw [app]
      cases h : Rec.lookup r k' with
      | none => simp [show k ≠ k' from fun h => hk h.symm]
      | some y => simp

/-- C40. The next edit always succeeds; it changes the record at the item's own position
and no other; every item object for that position reads the new value, and all other
properties of all item objects are unchanged. -/
theorem C40_edit_step {l : List Rec} {s : ListObj} {hs : List Item} {es : List Edit} (r : IReach l s hs es)
    {it : Item} (hm : it ∈ hs) (key : String) (x : Option LV) :
    ∃ s', s.set it key x = (s', .ok ()) ∧
      s'.value = s.value.modify it.index (fun r => Rec.put r key x) ∧
      (∀ it' ∈ hs, it'.index = it.index → s'.get it' key = .ok x) ∧
      (∀ it' ∈ hs, ∀ key', it'.index ≠ it.index ∨ key' ≠ key → s'.get it' key' = s.get it' key') := by
  obtain ⟨h1, h2, h3⟩ := ireach_inv r
  obtain ⟨g1, g2⟩ := h3 it hm
  have hlen : it.index < s.list.length := by rw [h2]; simpa using g2
  have r' := r.edit hm key x
  have hv := ireach_value r'
  refine ⟨(s.set it key x).1, ?_, ?_, ?_, ?_⟩
  · unfold ListObj.set; dsimp only; rw [if_pos hlen]
  · rw [hv, ireach_value r, List.foldl_append]; rfl
  all_goals
    obtain ⟨k1, _, _⟩ := ireach_inv r'
    have hlo : it.index < s.objs.length := by rw [h1, applyEdits_length]; exact g2
    have hobj : ∀ it' ∈ hs, (s.set it key x).1.objs.getD it'.ref [] =
        if it'.index = it.index then Rec.put (s.objs.getD it'.ref []) key x else s.objs.getD it'.ref [] := by
      intro it' hit'
      have hr := (h3 it' hit').1
      have hq : (s.set it key x).1.objs = s.objs.set it.ref (Rec.put (s.objs.getD it.ref []) key x) := by
        unfold ListObj.set; dsimp only; rw [if_pos hlen]
      rw [hq, hr, g1]
      simp only [List.getD_eq_getElem?_getD, List.getElem?_set]
      by_cases e : it'.index = it.index
      · rw [e]; simp [hlo]
      · rw [if_neg (fun h => e h.symm), if_neg e]
    have look := lookup_put
  · intro it' hit' he
    unfold ListObj.get
    rw [hobj it' hit', if_pos he, (look _ key x).1]
  · intro it' hit' key' hk
    unfold ListObj.get
    rw [hobj it' hit']
    by_cases e : it'.index = it.index
    · rw [if_pos e, (look _ key x).2 key' (hk.resolve_left (fun h => h e))]
    · rw [if_neg e]

/-- Two notes; the second one fetched twice, edited through both objects. -/
example :
    let l : List Rec := [[("key", some (.int 60)), ("length", some (.int 96))], [("key", some (.int 62))]]
    let s := (ListObj.parse l)
    let s1 := (s.set ⟨1, 1⟩ "key" (some (.int 64))).1
    let s2 := (s1.set ⟨1, 1⟩ "length" (some (.int 5))).1
    (∃ hs, IReach l s2 hs [(1, "key", some (.int 64)), (1, "length", some (.int 5))]) ∧
    s2.value = [[("key", some (.int 60)), ("length", some (.int 96))],
      [("key", some (.int 64)), ("length", some (.int 5))]] := by
  intro l s s1 s2
  refine ⟨⟨_, .edit (.fetch (.edit (.fetch .parsed) ?_ "key" (some (.int 64)))) ?_ "length" (some (.int 5))⟩, ?_⟩
  · decide
  · decide
  · decide

end PyFLP
