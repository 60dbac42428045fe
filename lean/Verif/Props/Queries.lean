import Verif.Queries
import Verif.Props.Trees
/-!
# Questions to event trees agree (C145)
-/

namespace PyFLP

open Heap

namespace Spec

/-- How many of the events have the id. -/
def howMany (l : List Ev) (id : Nat) : Nat := (l.filter fun e => e.2 = id).length

end Spec

open Spec

theorem filter_shown (h : Heap) (t : Nat) (f : Nat → Bool) :
    (shown h t).filter (fun e => f e.2) = ((h.lst t).filter fun a => f (h.idOf a)).map fun a => ((h.cell a).ref, (h.cell a).id) := by
  unfold shown
  rw [List.filter_map]
  rfl

theorem countId_shown (h : Heap) (t id : Nat) : h.countId t id = howMany (shown h t) id := by
  unfold countId howMany
  rw [filter_shown h t (fun i => decide (i = id)), List.length_map]
  simp

theorem has_shown (h : Heap) (t id : Nat) : h.has t id = true ↔ ∃ ref, (ref, id) ∈ shown h t := by
  unfold Heap.has shown
  simp only [List.any_eq_true, beq_iff_eq, List.mem_map, Prod.mk.injEq]
  constructor
  · rintro ⟨a, ha, e⟩
    exact ⟨_, a, ha, rfl, e⟩
  · rintro ⟨ref, a, ha, -, e⟩
    exact ⟨a, ha, e⟩

theorem sum_counts : ∀ (n : Nat) (l : List Nat), l.length ≤ n → (l.eraseDups.map fun x => (l.filter (· = x)).length).sum = l.length := by
  intro n
  induction n with
  | zero =>
    intro l hl
    have : l = [] := List.length_eq_zero_iff.1 (by omega)
    subst this
    simp
  | succ n ih =>
    intro l hl
    cases l with
    | nil => simp
    | cons a l =>
      have h1 : (l.filter fun b => !b == a).length ≤ l.length := List.length_filter_le _ _
      have h2 := ih (l.filter fun b => !b == a) (by simp at hl; omega)
      rw [List.eraseDups_cons, List.map_cons, List.sum_cons]
      have h3 : (l.filter fun b => !b == a).eraseDups.map (fun x => ((a :: l).filter (· = x)).length) =
          (l.filter fun b => !b == a).eraseDups.map (fun x => ((l.filter fun b => !b == a).filter (· = x)).length) := by
        refine List.map_congr_left fun x hx => ?_
        have hx' : x ∈ l.filter fun b => !b == a := List.mem_eraseDups.1 hx
        have hne : x ≠ a := by simpa using (List.mem_filter.1 hx').2
        rw [List.filter_cons_of_neg (by simpa using fun e : a = x => hne e.symm), List.filter_filter]
        congr 1
        refine List.filter_congr fun y _ => ?_
        by_cases e : y = x
        · subst e; simp [hne]
        · simp [e]
      rw [h3, h2, List.filter_cons_of_pos (by simp), List.length_cons, List.length_cons]
      have h4 : (l.filter (· = a)).length + (l.filter fun b => !b == a).length = l.length := by
        clear ih hl h1 h2 h3
        induction l with
        | nil => rfl
        | cons b l ih =>
          by_cases e : b = a
          · subst e; simp; omega
          · simp [e]; omega
      omega

theorem nodup_eraseDups : ∀ (n : Nat) (l : List Nat), l.length ≤ n → l.eraseDups.Nodup := by
  intro n
  induction n with
  | zero =>
    intro l hl
    have : l = [] := List.length_eq_zero_iff.1 (by omega)
    subst this
    simp
  | succ n ih =>
    intro l hl
    cases l with
    | nil => simp
    | cons a l =>
      have h1 : (l.filter fun b => !b == a).length ≤ l.length := List.length_filter_le _ _
      rw [List.eraseDups_cons, List.nodup_cons]
      refine ⟨fun hm => ?_, ih _ (by simp at hl; omega)⟩
      have := (List.mem_filter.1 (List.mem_eraseDups.1 hm)).2
      simp at this

/-- C145. In every state of a tree its methods agree about its events `list(tree)`: `id in tree` if one of them has the id; `len`
is their number and `count(id)` the number of those with the id; `ids` holds exactly the ids that occur, and the counts of these
add up to `len`; `get(*ids)` gives the events with these ids in their order, and `first(id)` the first one of `get(id)`, or
`KeyError` if there is none.  `repr` shows the number of different ids and the number of events. -/
theorem C145_queries (h : Heap) (t : Nat) :
    (∀ id, h.has t id = true ↔ ∃ ref, (ref, id) ∈ shown h t) ∧
    h.size t = (shown h t).length ∧
    (∀ id, h.countId t id = howMany (shown h t) id) ∧
    (∀ id, id ∈ h.idSet t ↔ h.has t id = true) ∧ (h.idSet t).Nodup ∧
    ((h.idSet t).map (h.countId t)).sum = h.size t ∧
    (∀ ids, h.get t ids = ((shown h t).filter fun e => e.2 ∈ ids).map Prod.fst) ∧
    (∀ id, h.first t id = match h.get t [id] with | ref :: _ => .ok ref | [] => .error .keyError) ∧
    h.reprNumbers t = ((h.idSet t).length, (shown h t).length) := by
  have hsize : h.size t = (shown h t).length := by unfold Heap.size shown; rw [List.length_map]
  refine ⟨has_shown h t, hsize, countId_shown h t, fun id => ?_, nodup_eraseDups _ _ (Nat.le_refl _), ?_, fun ids => ?_, fun id => ?_, ?_⟩
  · unfold idSet Heap.has
    rw [List.mem_eraseDups, List.mem_map, List.any_eq_true]
    simp
  · have := sum_counts _ ((h.lst t).map h.idOf) (Nat.le_refl _)
    rw [List.length_map] at this
    unfold idSet Heap.size
    rw [← this]
    congr 1
    refine List.map_congr_left fun x _ => ?_
    unfold countId
    rw [List.filter_map, List.length_map]
    simp [Function.comp_def]
  · unfold Heap.get
    rw [filter_shown h t (fun i => decide (i ∈ ids)), List.map_map]
    rfl
  · unfold Heap.first Heap.get
    generalize h.lst t = l
    induction l with
    | nil => rfl
    | cons a l ih =>
      by_cases e : h.idOf a = id
      · simp [e]
      · rw [List.find?_cons_of_neg (by simpa using e), List.filter_cons_of_neg (by simpa using e)]
        exact ih
  · unfold reprNumbers
    rw [hsize]

/-- A tree with two events of one id. -/
example : (TreeDemo.h0.idSet 0).map (TreeDemo.h0.countId 0) = [3, 2, 1] ∧ TreeDemo.h0.first 0 203 = .ok 1 ∧
    TreeDemo.h0.get 0 [203, 21] = [1, 3, 4] ∧ TreeDemo.h0.reprNumbers 0 = (3, 6) := by decide +kernel

theorem places_count (l : List Ev) (id : Nat) : (places l id).length = howMany l id := by
  unfold places howMany
  induction l with
  | nil => rfl
  | cons a l ih =>
    rw [List.length_cons, List.range_succ_eq_map, List.filter_cons, List.filter_map, List.filter_cons]
    by_cases e : a.2 = id
    · simp only [List.getElem?_cons_zero, Option.map_some, e, decide_true, if_true, List.length_cons, List.length_map]
      rw [← ih]
      simp [Function.comp_def]
    · simp only [List.getElem?_cons_zero, Option.map_some, Option.some.injEq, e, decide_false, Bool.false_eq_true, if_false, List.length_map]
      rw [← ih]
      simp [Function.comp_def]

theorem howMany_append (a b : List Ev) (id : Nat) : howMany (a ++ b) id = howMany a id + howMany b id := by
  unfold howMany
  rw [List.filter_append, List.length_append]

theorem howMany_cons (e : Ev) (b : List Ev) (id : Nat) : howMany (e :: b) id = (if e.2 = id then 1 else 0) + howMany b id := by
  unfold howMany
  rw [List.filter_cons]
  by_cases h : e.2 = id
  · simp [h]; omega
  · simp [h]

theorem filter_without {l : List Ev} (hn : (l.map Prod.fst).Nodup) {e : Ev} (he : e ∈ l) :
    ∃ a b, l = a ++ e :: b ∧ l.filter (fun x => x.1 ≠ e.1) = a ++ b := by
  obtain ⟨a, b, rfl⟩ := List.append_of_mem he
  refine ⟨a, b, rfl, ?_⟩
  rw [List.map_append, List.map_cons, List.nodup_append] at hn
  obtain ⟨-, h2, h3⟩ := hn
  rw [List.filter_append, List.filter_cons_of_neg (by simp)]
  congr 1
  · refine List.filter_eq_self.2 fun x hx => ?_
    have := h3 x.1 (List.mem_map.2 ⟨x, hx, rfl⟩) e.1 (by simp)
    simpa using this
  · refine List.filter_eq_self.2 fun x hx => ?_
    have : x.1 ≠ e.1 := fun e' => (List.nodup_cons.1 h2).1 (List.mem_map.2 ⟨x, hx, e'⟩)
    simpa using this

/-- The counts of a tree before and after one event with the id has gone. -/
def Spec.OneLess (h h' : Heap) (u id : Nat) : Prop :=
  h'.countId u id + 1 = h.countId u id ∧ h'.size u + 1 = h.size u ∧ ∀ j, j ≠ id → h'.countId u j = h.countId u j

/-- C145. `pop(id, n)` (and `remove`) on a tree that is up to date succeeds exactly if `-count(id) <= n < count(id)`.  Then `count(id)`
and `len` are one less than before, in the tree and in every tree above it, and the other counts are as before.  Otherwise it raises `KeyError`
if `id` is not in the tree, else `IndexError`. -/
theorem C145_pop {h : Heap} {L : Nat → Prop} (r : Reach h L) {t : Nat} (ht : L t) (id : Nat) (n : Int) :
    (h.has t id = false → h.pop t id n = (h, .error .keyError)) ∧
    (h.has t id = true → ¬ (-(h.countId t id : Int) ≤ n ∧ n < h.countId t id) → h.pop t id n = (h, .error .indexError)) ∧
    (-(h.countId t id : Int) ≤ n ∧ n < h.countId t id → ∃ h' ref, h.pop t id n = (h', .ok ref) ∧
      ∀ u ∈ t :: h.ancestors t, OneLess h h' u id) := by
  have h21 := C21_pop_through_view r ht id n
  have hpos : ∀ (m : Nat), (position m n = none ↔ ¬ (-(m : Int) ≤ n ∧ n < m)) := by
    intro m
    unfold position
    split
    · simp; omega
    · split
      · simp; omega
      · simp; omega
  have hc : h.countId t id = (places (shown h t) id).length := by rw [places_count, countId_shown]
  have hhas : h.has t id = false ↔ places (shown h t) id = [] := by
    have h1 : h.has t id = true ↔ 0 < howMany (shown h t) id := by
      rw [has_shown]
      unfold howMany
      rw [List.length_pos_iff_exists_mem]
      constructor
      · rintro ⟨ref, hm⟩; exact ⟨_, List.mem_filter.2 ⟨hm, by simp⟩⟩
      · rintro ⟨⟨ref, i⟩, hm⟩
        obtain ⟨h1, h2⟩ := List.mem_filter.1 hm
        have : i = id := by simpa using h2
        subst this
        exact ⟨ref, h1⟩
    rw [← places_count] at h1
    rw [← List.length_eq_zero_iff]
    constructor
    · intro hf
      have : ¬ (0 < (places (shown h t) id).length) := fun hp => by rw [h1.2 hp] at hf; cases hf
      omega
    · intro hz
      cases hh : h.has t id with
      | false => rfl
      | true => have := h1.1 hh; omega
  refine ⟨fun hf => ?_, fun hf hr => ?_, fun hr => ?_⟩
  · have : plainPop (shown h t) id n = .error .keyError := by unfold plainPop; rw [if_pos (hhas.1 hf)]
    rw [this] at h21
    exact h21.1
  · have hne : places (shown h t) id ≠ [] := fun e => by rw [hhas.2 e] at hf; cases hf
    rw [hc] at hr
    have : plainPop (shown h t) id n = .error .indexError := by unfold plainPop; rw [if_neg hne, (hpos _).2 hr]
    rw [this] at h21
    exact h21.1
  · rw [hc] at hr
    have hne : places (shown h t) id ≠ [] := fun e => by rw [e] at hr; simp at hr; omega
    obtain ⟨e, l', hp⟩ : ∃ e l', plainPop (shown h t) id n = .ok (e, l') := by
      unfold plainPop
      rw [if_neg hne]
      cases hk : position (places (shown h t) id).length n with
      | none => exact absurd hr ((hpos _).1 hk)
      | some k =>
        have hlt := (position_lt hk).1
        dsimp only
        rw [List.getElem?_eq_getElem hlt]
        dsimp only
        have hm := List.mem_filter.1 (List.getElem_mem hlt)
        have hi := List.mem_range.1 hm.1
        rw [List.getElem?_eq_getElem hi]
        exact ⟨_, _, rfl⟩
    rw [hp] at h21
    obtain ⟨h', e1, -, e3, e4, -, e6, -, -⟩ := h21
    refine ⟨h', _, e1, fun u hu => ?_⟩
    obtain ⟨g, hn⟩ := reach_good r
    obtain ⟨c1, c2, c3⟩ := g.chain_facts t ht
    have hnu : ((shown h u).map Prod.fst).Nodup := by
      refine hn.sublist ?_
      unfold shown
      exact ((g.sub u (c2 u hu).1).map _).map _
    obtain ⟨q1, q2⟩ := e6 u hu
    obtain ⟨a, b, w1, w2⟩ := filter_without hnu q1
    have hs : ∀ (k : Heap), k.size u = (shown k u).length := fun k => (C145_queries k u).2.1
    refine ⟨?_, ?_, fun j hj => ?_⟩
    · rw [countId_shown, countId_shown, q2, w2, w1, howMany_append, howMany_append, howMany_cons, if_pos e3]; omega
    · rw [hs, hs, q2, w2, w1]; simp; omega
    · rw [countId_shown, countId_shown, q2, w2, w1, howMany_append, howMany_append, howMany_cons, if_neg (by rw [e3]; exact fun e => hj e.symm)]; omega

/-- C145. A successful `insert` through a tree that is up to date and not empty makes the counts of the event's id and `len` one more than before, in
the tree and in every tree above it. -/
theorem C145_insert {h : Heap} {L : Nat → Prop} (r : Reach h L) {t : Nat} (ht : L t) (hne : shown h t ≠ []) {pos : Int} {e : Ev}
    {h' : Heap} (hi : h.insert t pos e.1 e.2 = (h', .ok ())) : ∀ u ∈ t :: h.ancestors t, OneLess h' h u e.2 := by
  have h24 := C24_insert_partial r ht hne pos e
  cases hp : position (shown h t).length pos with
  | none => rw [hp] at h24; rw [h24] at hi; cases hi
  | some k =>
    rw [hp] at h24
    obtain ⟨h2, e1, -, e3, -⟩ := h24
    rw [e1] at hi
    injection hi with hi
    subst hi
    intro u hu
    obtain ⟨i, -, q⟩ := e3 u hu
    have hs : ∀ (k : Heap), k.size u = (shown k u).length := fun k => (C145_queries k u).2.1
    have hd : ∀ j, howMany (shown h u) j = howMany ((shown h u).take i) j + howMany ((shown h u).drop i) j := fun j => by
      rw [← howMany_append, List.take_append_drop]
    refine ⟨?_, ?_, fun j hj => ?_⟩
    · rw [countId_shown, countId_shown, q, hd, howMany_append, howMany_cons, if_pos rfl]; omega
    · rw [hs, hs, q]; simp; omega
    · rw [countId_shown, countId_shown, q, hd, howMany_append, howMany_cons, if_neg fun e => hj e.symm]; omega

/-- The hypotheses can be met: a channel view of a project. -/
example : Reach TreeDemo.h0 (· = 0) ∧ shown TreeDemo.h0 0 ≠ [] ∧ TreeDemo.h0.countId 0 64 = 3 ∧
    (TreeDemo.h0.insert 0 2 9 64).2 = .ok () := ⟨.parsed _ (by decide), by decide +kernel, by decide +kernel, by decide +kernel⟩

/-- `tree += event` does not extend a tree like a list: it raises `IndexError` if the tree has events, and for an empty project it
adds the event but leaves the name bound to `None`. -/
theorem C145_iadd_refuted : (∀ (h : Heap) (t : Nat) (e : Ev), shown h t ≠ [] → h.iadd t e = (h, .error .indexError)) ∧
    (∀ (h : Heap) (L : Nat → Prop) (e : Ev), Reach h L → shown h 0 = [] →
      ∃ h', h.iadd 0 e = (h', .ok none) ∧ shown h' 0 = [e]) := by
  refine ⟨fun h t e hne => ?_, fun h L e r hne => ?_⟩
  · unfold iadd extend
    rw [C25_append_refuted h t hne e]
  · obtain ⟨h', e1, e2⟩ := C25_append_partial r hne e
    refine ⟨h', ?_, e2⟩
    unfold iadd extend
    rw [e1]
    rfl

end PyFLP
