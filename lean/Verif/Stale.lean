import Verif.SortedTrees
import Verif.World
/-!
# Event trees used without any care

Lemmas about the operations of `SortedTrees.lean` that need no sorted lists and no views that are up to date: whatever bisection
finds in lists that are not sorted, a value is added at some place, and one value is removed or none.
-/

namespace PyFLP

open Spec

/-- Bisection ends inside of the list, sorted or not. -/
theorem bisect_bounds (p : Nat → Bool) (l : List Nat) (lo hi : Nat) (h : lo ≤ hi) : lo ≤ bisect p l lo hi ∧ bisect p l lo hi ≤ hi := by
  rw [bisect]
  split
  · dsimp only
    split
    · have := bisect_bounds p l ((lo + hi) / 2 + 1) hi (by omega)
      omega
    · have := bisect_bounds p l lo ((lo + hi) / 2) (by omega)
      omega
  · omega
termination_by hi - lo

namespace SList

/-- As many last values as chunks. -/
def Even (s : SList) : Prop := s.maxes.length = s.lists.length

theorem split_at {α : Type} {l : List α} {i : Nat} (h : i < l.length) : ∃ A c B, l = A ++ c :: B ∧ A.length = i :=
  ⟨l.take i, l[i], l.drop (i + 1), by rw [List.getElem_cons_drop, List.take_append_drop], by rw [List.length_take]; omega⟩

theorem ofSorted_even (l : List Nat) : (ofSorted l).Even := by simp [Even, ofSorted]

theorem expand_even {s : SList} (hs : s.Even) (pos : Nat) : (s.expand pos).Even ∧ (s.expand pos).values = s.values := by
  unfold expand
  dsimp only
  split
  · rename_i hlt
    have hp : pos < s.lists.length := by
      rcases Nat.lt_or_ge pos s.lists.length with h | h
      · exact h
      · rw [List.getD_eq_getElem?_getD, List.getElem?_eq_none h] at hlt
        simp at hlt
    refine ⟨?_, ?_⟩
    · unfold Even at *
      simp only [List.length_append, List.length_cons, List.length_take, List.length_drop, hs]
    · rw [List.getD_eq_getElem?_getD, List.getElem?_eq_getElem hp, Option.getD_some]
      generalize hc : s.lists[pos] = c at *
      have hsplit : s.lists = s.lists.take pos ++ c :: s.lists.drop (pos + 1) := by
        rw [← hc, List.getElem_cons_drop, List.take_append_drop]
      unfold values
      dsimp only
      conv => rhs; rw [hsplit]
      rw [List.flatten_append, List.flatten_append, List.flatten_cons, List.flatten_cons, List.flatten_cons,
        ← List.append_assoc (c.take loadFactor), List.take_append_drop]
  · exact ⟨hs, rfl⟩

/-- `add` puts the value somewhere and keeps the others in their order. -/
theorem add_any (h : Heap) {s : SList} (hs : s.Even) (a : Nat) :
    (s.add h a).Even ∧ ∃ u v, s.values = u ++ v ∧ (s.add h a).values = u ++ a :: v := by
  unfold add
  split
  · rename_i he
    have h0 : s.lists = [] := by
      rw [List.isEmpty_iff] at he
      unfold Even at hs
      rw [he] at hs
      exact List.length_eq_zero_iff.1 hs.symm
    refine ⟨by simp [Even] at *; exact hs, [], [], ?_, ?_⟩ <;> simp [values, h0]
  · rename_i he
    have hpos : 0 < s.maxes.length := by
      rcases Nat.eq_zero_or_pos s.maxes.length with h | h
      · exact absurd (List.isEmpty_iff.2 (List.length_eq_zero_iff.1 h)) he
      · exact h
    have hb := bisect_bounds (fun b => decide (h.r b ≤ h.r a)) s.maxes 0 s.maxes.length (Nat.zero_le _)
    dsimp only
    generalize bisect (fun b => decide (h.r b ≤ h.r a)) s.maxes 0 s.maxes.length = pos at hb ⊢
    unfold Even at hs
    split
    · obtain ⟨A, c, B, e, el⟩ := split_at (l := s.lists) (i := pos - 1) (by omega)
      have e1 := expand_even (s := ⟨s.lists.set (pos - 1) (s.lists.getD (pos - 1) [] ++ [a]), s.maxes.set (pos - 1) a⟩)
        (by simp [Even, hs]) (pos - 1)
      refine ⟨e1.1, A.flatten ++ c, B.flatten, ?_, ?_⟩
      · rw [values, e, flatten_mid]
      · rw [e1.2]
        unfold values
        dsimp only
        rw [e, ← el, getD_mid, set_mid, flatten_mid]
        simp
    · obtain ⟨A, c, B, e, el⟩ := split_at (l := s.lists) (i := pos) (by omega)
      generalize bisect (fun b => decide (h.r b ≤ h.r a)) (s.lists.getD pos []) 0 (s.lists.getD pos []).length = k
      have e1 := expand_even (s := ⟨s.lists.set pos ((s.lists.getD pos []).take k ++ a :: (s.lists.getD pos []).drop k), s.maxes⟩)
        (by simp [Even, hs]) pos
      refine ⟨e1.1, A.flatten ++ c.take k, c.drop k ++ B.flatten, ?_, ?_⟩
      · rw [values, e, flatten_mid]
        conv => lhs; rw [← List.take_append_drop k c]
        simp only [List.append_assoc]
      · rw [e1.2]
        unfold values
        dsimp only
        rw [e, ← el, getD_mid, set_mid, flatten_mid]
        simp

theorem delete_any {s : SList} (hs : s.Even) {pos : Nat} (hp : pos < s.lists.length) {idx : Nat}
    (hi : idx < (s.lists.getD pos []).length) :
    (s.delete pos idx).Even ∧ ∃ u b v, s.values = u ++ b :: v ∧ (s.delete pos idx).values = u ++ v := by
  obtain ⟨A, c, B, e, rfl⟩ := split_at hp
  have hg : s.lists.getD A.length [] = c := by rw [e, getD_mid]
  rw [hg] at hi
  obtain ⟨x, b, y, ec, rfl⟩ := split_at hi
  unfold Even at hs
  unfold delete
  dsimp only
  rw [hg, e, set_mid, ec, eraseIdx_mid]
  have hval : s.values = (A.flatten ++ x) ++ b :: (y ++ B.flatten) := by rw [values, e, flatten_mid, ec]; simp
  have hflat : (A ++ (x ++ y) :: B).flatten = (A.flatten ++ x) ++ (y ++ B.flatten) := by rw [flatten_mid]; simp
  split
  · exact ⟨by simp [Even, hs, e], _, _, _, hval, hflat⟩
  · split
    · rename_i h2
      by_cases hA : A.length = 0
      · rw [if_pos hA]
        have hA0 : A = [] := List.length_eq_zero_iff.1 hA
        subst hA0
        simp only [List.nil_append] at *
        obtain ⟨d, B', rfl⟩ : ∃ d B', B = d :: B' := by
          cases B with
          | nil => simp at h2
          | cons d B' => exact ⟨d, B', rfl⟩
        have e2 := expand_even (s := ⟨(((x ++ y) :: d :: B').set (1 - 1)
            ((((x ++ y) :: d :: B').getD (1 - 1) []) ++ (((x ++ y) :: d :: B').getD 1 []))).eraseIdx 1,
            (s.maxes.set (1 - 1) (lastOf ((((x ++ y) :: d :: B').getD (1 - 1) []) ++ (((x ++ y) :: d :: B').getD 1 [])))).eraseIdx 1⟩)
          (by
            rw [e] at hs
            simp only [List.length_cons] at hs
            simp [Even, List.length_eraseIdx, hs]) (1 - 1)
        refine ⟨e2.1, _, _, _, hval, ?_⟩
        rw [e2.2, values]
        simp
      · rw [if_neg hA]
        obtain ⟨A', d, rfl⟩ : ∃ A' d, A = A' ++ [d] := by
          rcases List.eq_nil_or_concat A with h | ⟨A', d, h⟩
          · rw [h] at hA; simp at hA
          · exact ⟨A', d, by rw [h, List.concat_eq_append]⟩
        have hl : (A' ++ [d]).length = A'.length + 1 := by simp
        rw [hl, Nat.add_sub_cancel]
        have hgd : (A' ++ [d] ++ (x ++ y) :: B).getD A'.length [] = d := by
          rw [List.append_assoc]; exact getD_mid
        have hge : (A' ++ [d] ++ (x ++ y) :: B).getD (A'.length + 1) [] = x ++ y := by
          rw [← hl]; exact getD_mid
        rw [hgd, hge]
        have hset : ((A' ++ [d] ++ (x ++ y) :: B).set A'.length (d ++ (x ++ y))).eraseIdx (A'.length + 1) =
            A' ++ (d ++ (x ++ y)) :: B := by
          rw [List.append_assoc, List.singleton_append, set_mid]
          have := eraseIdx_mid (A := A' ++ [d ++ (x ++ y)]) (B := B) (c := x ++ y)
          simp only [List.length_append, List.length_cons, List.length_nil] at this
          simpa using this
        rw [hset]
        have e2 := expand_even (s := ⟨A' ++ (d ++ (x ++ y)) :: B,
            (s.maxes.set A'.length (lastOf (d ++ (x ++ y)))).eraseIdx (A'.length + 1)⟩)
          (by
            rw [e] at hs
            simp only [List.length_append, List.length_cons, List.length_nil] at hs
            simp only [Even, List.length_eraseIdx, List.length_set, List.length_append, List.length_cons]
            rw [if_pos (by omega)]
            omega) A'.length
        refine ⟨e2.1, _, _, _, hval, ?_⟩
        rw [e2.2, values, flatten_mid]
        simp
    · split
      · exact ⟨by simp [Even, hs, e], _, _, _, hval, hflat⟩
      · rename_i h1 h2 h3
        refine ⟨by simp [Even, List.length_eraseIdx, hs, e], _, _, _, hval, ?_⟩
        have hc0 : x ++ y = [] := List.length_eq_zero_iff.1 (by omega)
        rw [values]
        dsimp only
        rw [eraseIdx_mid]
        obtain ⟨rfl, rfl⟩ := List.append_eq_nil_iff.1 hc0
        simp

/-- `remove` takes out one value and keeps the others in their order, or raises. -/
theorem remove_any (h : Heap) {s : SList} (hs : s.Even) (a : Nat) {s' : SList} (hr : s.remove h a = .ok s') :
    s'.Even ∧ ∃ u b v, s.values = u ++ b :: v ∧ s'.values = u ++ v := by
  unfold remove at hr
  split at hr
  · cases hr
  · dsimp only at hr
    have hb := bisect_bounds (fun b => decide (h.r b < h.r a)) s.maxes 0 s.maxes.length (Nat.zero_le _)
    generalize bisect (fun b => decide (h.r b < h.r a)) s.maxes 0 s.maxes.length = pos at hb hr
    split at hr
    · cases hr
    · generalize bisect (fun b => decide (h.r b < h.r a)) (s.lists.getD pos []) 0 (s.lists.getD pos []).length = idx at hr
      split at hr
      · cases hr
      · rename_i hne b hget
        split at hr
        · cases hr
          have hs' := hs
          unfold Even at hs'
          exact delete_any hs (by omega) (List.getElem?_eq_some_iff.1 hget).1
        · cases hr

end SList

namespace SHeap

/-- `et.parent`. -/
def par (s : SHeap) (t : Nat) : Option Nat := (s.trees.getD t default).parent

theorem flat_parent (s : SHeap) (t : Nat) : s.flat.parent t = s.par t := by
  unfold Heap.parent Heap.tree flat par
  rw [List.getD_eq_getElem?_getD, List.getD_eq_getElem?_getD, List.getElem?_map]
  cases s.trees[t]? <;> rfl

theorem getD_modify {α : Type} (l : List α) (i : Nat) (f : α → α) (d : α) (t : Nat) :
    (l.modify i f).getD t d = if i = t ∧ t < l.length then f (l.getD t d) else l.getD t d := by
  rw [List.getD_eq_getElem?_getD, List.getD_eq_getElem?_getD, List.getElem?_modify]
  by_cases h : i = t
  · rcases Nat.lt_or_ge t l.length with ht | ht
    · rw [if_pos ⟨h, ht⟩, List.getElem?_eq_getElem ht]; simp [h]
    · rw [if_neg (by omega), List.getElem?_eq_none ht]; simp
  · rw [if_neg (by simp [h])]
    cases l[t]? <;> simp [h]

/-- The hierarchy of the views of one project; nothing is said about the order of events or about views being up to date. -/
structure Upright (s : SHeap) : Prop where
  even : ∀ t, (s.slst t).Even
  known : ∀ a ∈ (s.slst 0).values, a < s.cells.length
  pos : 0 < s.trees.length
  par0 : s.par 0 = none
  up : ∀ t, t < s.trees.length → t ≠ 0 → ∃ p, p < t ∧ s.par t = some p

/-- The ancestors of a view end with the project. -/
theorem Upright.chain {s : SHeap} (u : s.Upright) : ∀ (n t : Nat), t ≤ n → t < s.trees.length →
    ∃ pre, t :: s.flat.ancestorsUpTo n t = pre ++ [0] ∧ ∀ w ∈ pre, w ≠ 0 ∧ w < s.trees.length := by
  intro n
  induction n with
  | zero =>
    intro t ht hl
    obtain rfl : t = 0 := by omega
    exact ⟨[], by rw [Heap.ancestorsUpTo]; rfl, by simp⟩
  | succ n ih =>
    intro t ht hl
    rw [Heap.ancestorsUpTo, flat_parent]
    rcases Nat.eq_zero_or_pos t with rfl | h0
    · rw [u.par0]
      exact ⟨[], rfl, by simp⟩
    · obtain ⟨p, hp, e⟩ := u.up t hl (by omega)
      rw [e]
      obtain ⟨pre, h1, h2⟩ := ih p (by omega) (by omega)
      refine ⟨t :: pre, by dsimp only; rw [h1]; rfl, fun w hw => ?_⟩
      rcases List.mem_cons.1 hw with rfl | hw
      · exact ⟨by omega, hl⟩
      · exact h2 w hw

theorem slst_setLst (s : SHeap) {t : Nat} (ht : t < s.trees.length) (l : SList) (w : Nat) :
    (s.setLst t l).slst w = if t = w then l else s.slst w := by
  unfold slst setLst
  dsimp only
  rw [getD_modify]
  by_cases h : t = w
  · subst h; rw [if_pos ⟨rfl, ht⟩, if_pos rfl]
  · rw [if_neg (fun x => h x.1), if_neg h]

theorem par_setLst (s : SHeap) (t : Nat) (l : SList) (w : Nat) : (s.setLst t l).par w = s.par w := by
  unfold par setLst
  dsimp only
  rw [getD_modify]
  split <;> rfl

theorem length_setLst (s : SHeap) (t : Nat) (l : SList) : (s.setLst t l).trees.length = s.trees.length := by simp [setLst]

/-- What the project shows, from the last state of its list. -/
theorem shown_eq (s : SHeap) : shown s.flat 0 = (s.slst 0).values.map fun a => ((s.cells.getD a default).ref, (s.cells.getD a default).id) := by
  unfold shown
  rw [← slst_values]
  rfl

/-- Replacing a list other than that of the project. -/
theorem Upright.set_other {s : SHeap} (u : s.Upright) {t : Nat} (ht : t < s.trees.length) (h0 : t ≠ 0) {l : SList} (hl : l.Even) :
    (s.setLst t l).Upright ∧ shown (s.setLst t l).flat 0 = shown s.flat 0 := by
  have e0 : (s.setLst t l).slst 0 = s.slst 0 := by rw [slst_setLst s ht, if_neg h0]
  refine ⟨⟨fun w => ?_, ?_, ?_, ?_, ?_⟩, ?_⟩
  · rw [slst_setLst s ht]
    split
    · exact hl
    · exact u.even w
  · rw [e0]; exact u.known
  · rw [length_setLst]; exact u.pos
  · rw [par_setLst]; exact u.par0
  · rw [length_setLst]; intro w hw; rw [par_setLst]; exact u.up w hw
  · rw [shown_eq, shown_eq, e0]; rfl

/-- Replacing the list of the project. -/
theorem Upright.set_project {s : SHeap} (u : s.Upright) {l : SList} (hl : l.Even) (hk : ∀ a ∈ l.values, a < s.cells.length) :
    (s.setLst 0 l).Upright ∧
    shown (s.setLst 0 l).flat 0 = l.values.map fun a => ((s.cells.getD a default).ref, (s.cells.getD a default).id) := by
  have e0 : (s.setLst 0 l).slst 0 = l := by rw [slst_setLst s u.pos, if_pos rfl]
  refine ⟨⟨fun w => ?_, ?_, ?_, ?_, ?_⟩, ?_⟩
  · rw [slst_setLst s u.pos]
    split
    · exact hl
    · exact u.even w
  · rw [e0]; exact hk
  · rw [length_setLst]; exact u.pos
  · rw [par_setLst]; exact u.par0
  · rw [length_setLst]; intro w hw; rw [par_setLst]; exact u.up w hw
  · rw [shown_eq, e0]; rfl

/-- Changing `IndexedEvent`s without touching the events. -/
theorem Upright.recell {s : SHeap} (u : s.Upright) {cs : List Cell} (hl : s.cells.length ≤ cs.length)
    (hc : ∀ a, a < s.cells.length → (cs.getD a default).ref = (s.cells.getD a default).ref ∧
      (cs.getD a default).id = (s.cells.getD a default).id) :
    (⟨cs, s.trees⟩ : SHeap).Upright ∧ shown (⟨cs, s.trees⟩ : SHeap).flat 0 = shown s.flat 0 := by
  refine ⟨⟨u.even, fun a ha => Nat.lt_of_lt_of_le (u.known a ha) hl, u.pos, u.par0, u.up⟩, ?_⟩
  rw [shown_eq, shown_eq]
  refine List.map_congr_left fun a ha => ?_
  obtain ⟨h1, h2⟩ := hc a (u.known a ha)
  exact Prod.ext h1 h2

/-- `addAll` on views. -/
theorem Upright.addAll_other (c : Cell) : ∀ (ts : List Nat) {s : SHeap}, s.Upright → (∀ w ∈ ts, w ≠ 0 ∧ w < s.trees.length) →
    (s.addAll c ts).Upright ∧ shown (s.addAll c ts).flat 0 = shown s.flat 0 ∧ (s.addAll c ts).trees.length = s.trees.length := by
  intro ts
  induction ts with
  | nil => intro s u _; exact ⟨u, rfl, rfl⟩
  | cons t ts ih =>
    intro s u hts
    rw [addAll]
    obtain ⟨h0, hl⟩ := hts t List.mem_cons_self
    obtain ⟨u1, e1⟩ := u.recell (cs := s.cells ++ [c]) (by simp) (fun a ha => by
      rw [List.getD_eq_getElem?_getD, List.getElem?_append_left ha, ← List.getD_eq_getElem?_getD]; exact ⟨rfl, rfl⟩)
    obtain ⟨u2, e2⟩ := u1.set_other (t := t) hl h0 (SList.add_any (⟨s.cells ++ [c], s.trees⟩ : SHeap).flat (u1.even t) s.cells.length).1
    obtain ⟨u3, e3, l3⟩ := ih u2 (fun w hw => by rw [length_setLst]; exact hts w (List.mem_cons_of_mem _ hw))
    exact ⟨u3, e3.trans (e2.trans e1), l3.trans (length_setLst _ _ _)⟩

theorem addAll_append (s : SHeap) (c : Cell) (ts us : List Nat) : s.addAll c (ts ++ us) = (s.addAll c ts).addAll c us := by
  induction ts generalizing s with
  | nil => rfl
  | cons t ts ih => rw [List.cons_append, addAll, addAll]; exact ih _

/-- `_recursive(add)` puts the event somewhere into the project. -/
theorem Upright.addAll_any {s : SHeap} (u : s.Upright) (c : Cell) {pre : List Nat} (hp : ∀ w ∈ pre, w ≠ 0 ∧ w < s.trees.length) :
    (s.addAll c (pre ++ [0])).Upright ∧
    ∃ x y, shown s.flat 0 = x ++ y ∧ shown (s.addAll c (pre ++ [0])).flat 0 = x ++ (c.ref, c.id) :: y := by
  rw [addAll_append]
  obtain ⟨u1, e1, _⟩ := u.addAll_other c pre hp
  rw [← e1]
  generalize s.addAll c pre = s at u1 ⊢
  rw [addAll]
  obtain ⟨u2, e2⟩ := u1.recell (cs := s.cells ++ [c]) (by simp) (fun a ha => by
      rw [List.getD_eq_getElem?_getD, List.getElem?_append_left ha, ← List.getD_eq_getElem?_getD]; exact ⟨rfl, rfl⟩)
  rw [← e2]
  obtain ⟨h1, x, y, h2, h3⟩ := SList.add_any (⟨s.cells ++ [c], s.trees⟩ : SHeap).flat (u2.even 0) s.cells.length
  obtain ⟨u3, e3⟩ := u2.set_project h1 (by
    rw [h3]
    intro a ha
    dsimp only
    rw [List.length_append, List.length_singleton]
    have hk := u1.known
    have hk' : ∀ a ∈ x ++ y, a < s.cells.length := by rw [← h2]; exact hk
    rcases List.mem_append.1 ha with ha | ha
    · have := hk' a (List.mem_append_left _ ha); omega
    · rcases List.mem_cons.1 ha with rfl | ha
      · omega
      · have := hk' a (List.mem_append_right _ ha); omega)
  rw [addAll]
  refine ⟨u3, x.map fun a => (((s.cells ++ [c]).getD a default).ref, ((s.cells ++ [c]).getD a default).id),
    y.map fun a => (((s.cells ++ [c]).getD a default).ref, ((s.cells ++ [c]).getD a default).id), ?_, ?_⟩
  · rw [shown_eq, h2, List.map_append]
  · rw [e3, h3, List.map_append, List.map_cons]
    congr 2
    simp

/-- `removeAll` on views. -/
theorem Upright.removeAll_other (a : Nat) : ∀ (ts : List Nat) {s : SHeap}, s.Upright → (∀ w ∈ ts, w ≠ 0 ∧ w < s.trees.length) →
    (s.removeAll a ts).1.Upright ∧ shown (s.removeAll a ts).1.flat 0 = shown s.flat 0 ∧ (s.removeAll a ts).1.trees.length = s.trees.length := by
  intro ts
  induction ts with
  | nil => intro s u _; exact ⟨u, rfl, rfl⟩
  | cons t ts ih =>
    intro s u hts
    rw [removeAll]
    obtain ⟨h0, hl⟩ := hts t List.mem_cons_self
    split
    · exact ⟨u, rfl, rfl⟩
    · rename_i l hr
      obtain ⟨u2, e2⟩ := u.set_other (t := t) hl h0 (SList.remove_any s.flat (u.even t) a hr).1
      obtain ⟨u3, e3, l3⟩ := ih u2 (fun w hw => by rw [length_setLst]; exact hts w (List.mem_cons_of_mem _ hw))
      exact ⟨u3, e3.trans e2, l3.trans (length_setLst _ _ _)⟩

theorem removeAll_append (s : SHeap) (a : Nat) (ts us : List Nat) : s.removeAll a (ts ++ us) =
    match s.removeAll a ts with
    | (s1, .error e) => (s1, .error e)
    | (s1, .ok ()) => s1.removeAll a us := by
  induction ts generalizing s with
  | nil => rfl
  | cons t ts ih =>
    rw [List.cons_append, removeAll, removeAll]
    split
    · rfl
    · exact ih _

/-- `_recursive(remove)` takes one event out of the project if it does not raise, and none if it does. -/
theorem Upright.removeAll_any {s : SHeap} (u : s.Upright) (a : Nat) {pre : List Nat} (hp : ∀ w ∈ pre, w ≠ 0 ∧ w < s.trees.length) :
    (s.removeAll a (pre ++ [0])).1.Upright ∧
    match (s.removeAll a (pre ++ [0])).2 with
    | .ok _ => ∃ x e y, shown s.flat 0 = x ++ e :: y ∧ shown (s.removeAll a (pre ++ [0])).1.flat 0 = x ++ y
    | .error _ => shown (s.removeAll a (pre ++ [0])).1.flat 0 = shown s.flat 0 := by
  rw [removeAll_append]
  obtain ⟨u1, e1, _⟩ := u.removeAll_other a pre hp
  rw [← e1]
  rcases hr : s.removeAll a pre with ⟨s1, x | x⟩
  · rw [hr] at u1
    exact ⟨u1, rfl⟩
  · rw [hr] at u1
    dsimp only at u1 ⊢
    rw [removeAll]
    split
    · exact ⟨u1, rfl⟩
    · rename_i l hl
      obtain ⟨h1, x, b, y, h2, h3⟩ := SList.remove_any s1.flat (u1.even 0) a hl
      obtain ⟨u3, e3⟩ := u1.set_project h1 (by
        rw [h3]
        intro a ha
        refine u1.known a ?_
        rw [h2]
        rcases List.mem_append.1 ha with ha | ha
        · exact List.mem_append_left _ ha
        · exact List.mem_append_right _ (List.mem_cons_of_mem _ ha))
      rw [removeAll]
      refine ⟨u3, ?_⟩
      dsimp only
      rw [e3, h3, shown_eq, h2]
      exact ⟨_, _, _, by rw [List.map_append, List.map_cons], by rw [List.map_append]⟩

end SHeap

namespace Heap

theorem setR_event (h : Heap) (b : Nat) (x : Int) (a : Nat) :
    ((h.setR b x).cells.getD a default).ref = (h.cells.getD a default).ref ∧
    ((h.setR b x).cells.getD a default).id = (h.cells.getD a default).id := by
  unfold setR
  dsimp only
  rw [SHeap.getD_modify]
  split <;> exact ⟨rfl, rfl⟩

theorem setR_length (h : Heap) (b : Nat) (x : Int) : (h.setR b x).cells.length = h.cells.length := by simp [setR]

theorem shiftUp_event (l : List Nat) (x : Int) (h : Heap) : (h.shiftUp l x).cells.length = h.cells.length ∧ ∀ a,
    ((h.shiftUp l x).cells.getD a default).ref = (h.cells.getD a default).ref ∧
    ((h.shiftUp l x).cells.getD a default).id = (h.cells.getD a default).id := by
  induction l generalizing h with
  | nil => exact ⟨rfl, fun a => ⟨rfl, rfl⟩⟩
  | cons b l ih =>
    unfold shiftUp at *
    rw [List.foldl_cons]
    split
    · obtain ⟨i1, i2⟩ := ih (h.setR b (h.r b + 1))
      refine ⟨i1.trans (setR_length _ _ _), fun a => ?_⟩
      have := setR_event h b (h.r b + 1) a
      exact ⟨(i2 a).1.trans this.1, (i2 a).2.trans this.2⟩
    · exact ih h

theorem shiftDown_event (l : List Nat) (ie : Nat) (h : Heap) : (h.shiftDown l ie).cells.length = h.cells.length ∧ ∀ a,
    ((h.shiftDown l ie).cells.getD a default).ref = (h.cells.getD a default).ref ∧
    ((h.shiftDown l ie).cells.getD a default).id = (h.cells.getD a default).id := by
  induction l generalizing h with
  | nil => exact ⟨rfl, fun a => ⟨rfl, rfl⟩⟩
  | cons b l ih =>
    unfold shiftDown at *
    rw [List.foldl_cons]
    split
    · obtain ⟨i1, i2⟩ := ih (h.setR b (h.r b - 1))
      refine ⟨i1.trans (setR_length _ _ _), fun a => ?_⟩
      have := setR_event h b (h.r b - 1) a
      exact ⟨(i2 a).1.trans this.1, (i2 a).2.trans this.2⟩
    · exact ih h

end Heap

namespace SHeap

/-- `insert` puts the event somewhere into the project, or raises and changes nothing. -/
theorem Upright.insert_any {s : SHeap} (u : s.Upright) {t : Nat} (ht : t < s.trees.length) (pos : Int) (ref id : Nat) :
    (s.insert t pos ref id).1.Upright ∧
    match (s.insert t pos ref id).2 with
    | .ok _ => ∃ x y, shown s.flat 0 = x ++ y ∧ shown (s.insert t pos ref id).1.flat 0 = x ++ (ref, id) :: y
    | .error _ => (s.insert t pos ref id).1 = s := by
  unfold SHeap.insert
  split
  · exact ⟨u, rfl⟩
  · rename_i x _
    obtain ⟨hl, hc⟩ := Heap.shiftUp_event (s.flat.lst (s.flat.root t)) x s.flat
    obtain ⟨u1, e1⟩ := u.recell (Nat.le_of_eq hl.symm) (fun a _ => hc a)
    obtain ⟨pre, h1, h2⟩ := u1.chain t t (Nat.le_refl _) ht
    dsimp only
    unfold Heap.ancestors
    rw [h1, ← e1]
    exact u1.addAll_any ⟨x, ref, id⟩ h2

/-- `pop` takes one event out of the project, or raises and takes none. -/
theorem Upright.pop_any {s : SHeap} (u : s.Upright) {t : Nat} (ht : t < s.trees.length) (id : Nat) (pos : Int) :
    (s.pop t id pos).1.Upright ∧
    match (s.pop t id pos).2 with
    | .ok _ => ∃ x e y, shown s.flat 0 = x ++ e :: y ∧ shown (s.pop t id pos).1.flat 0 = x ++ y
    | .error _ => shown (s.pop t id pos).1.flat 0 = shown s.flat 0 := by
  unfold SHeap.pop
  split
  · split
    · exact ⟨u, rfl⟩
    · rename_i ie _
      obtain ⟨pre, h1, h2⟩ := u.chain t t (Nat.le_refl _) ht
      unfold Heap.ancestors
      rw [h1]
      have := u.removeAll_any ie h2
      rcases hr : s.removeAll ie (pre ++ [0]) with ⟨s1, x | x⟩
      · rw [hr] at this
        exact this
      · rw [hr] at this
        obtain ⟨u1, x, e, y, e1, e2⟩ := this
        dsimp only at e2 u1 ⊢
        obtain ⟨hl, hc⟩ := Heap.shiftDown_event (s1.flat.lst (s1.flat.root t)) ie s1.flat
        obtain ⟨u2, e3⟩ := u1.recell (Nat.le_of_eq hl.symm) (fun a _ => hc a)
        exact ⟨u2, x, e, y, e1, e3.trans e2⟩
  · exact ⟨u, rfl⟩

theorem slst_addChild (s : SHeap) (t c w : Nat) : (s.addChild t c).slst w = s.slst w := by
  unfold slst addChild
  dsimp only
  rw [getD_modify]
  split <;> rfl

theorem par_addChild (s : SHeap) (t c w : Nat) : (s.addChild t c).par w = s.par w := by
  unfold par addChild
  dsimp only
  rw [getD_modify]
  split <;> rfl

theorem Upright.addChild {s : SHeap} (u : s.Upright) (t c : Nat) :
    (s.addChild t c).Upright ∧ shown (s.addChild t c).flat 0 = shown s.flat 0 ∧ (s.addChild t c).trees.length = s.trees.length := by
  have hl : (s.addChild t c).trees.length = s.trees.length := by simp [SHeap.addChild]
  refine ⟨⟨fun w => ?_, ?_, ?_, ?_, ?_⟩, ?_, hl⟩
  · rw [slst_addChild]; exact u.even w
  · rw [slst_addChild]; exact u.known
  · rw [hl]; exact u.pos
  · rw [par_addChild]; exact u.par0
  · rw [hl]; intro w hw; rw [par_addChild]; exact u.up w hw
  · rw [shown_eq, shown_eq, slst_addChild]; rfl

theorem Upright.newTree {s : SHeap} (u : s.Upright) {t : Nat} (ht : t < s.trees.length) (el : List Nat) :
    (s.newTree (some t) el).1.Upright ∧ shown (s.newTree (some t) el).1.flat 0 = shown s.flat 0 ∧
    s.trees.length ≤ (s.newTree (some t) el).1.trees.length := by
  unfold SHeap.newTree
  dsimp only
  obtain ⟨u1, e1, l1⟩ := u.addChild t s.trees.length
  generalize hn : (⟨some t, _, SList.ofSorted (s.flat.sortCells el), []⟩ : STree) = n
  have hget : ∀ w, w ≠ s.trees.length → ((s.addChild t s.trees.length).trees ++ [n]).getD w default =
      (s.addChild t s.trees.length).trees.getD w default := by
    intro w hw
    rw [List.getD_eq_getElem?_getD, List.getD_eq_getElem?_getD]
    rcases Nat.lt_or_ge w s.trees.length with h | h
    · rw [List.getElem?_append_left (by omega)]
    · rw [List.getElem?_append_right (by omega), List.getElem?_eq_none (by simp; omega), List.getElem?_eq_none (by omega)]
  have hlast : ((s.addChild t s.trees.length).trees ++ [n]).getD s.trees.length default = n := by
    rw [List.getD_eq_getElem?_getD, List.getElem?_append_right (by omega), l1]
    simp
  have h0 : 0 ≠ s.trees.length := by have := u.pos; omega
  refine ⟨⟨fun w => ?_, ?_, ?_, ?_, ?_⟩, ?_, ?_⟩
  · unfold slst
    dsimp only
    by_cases hw : w = s.trees.length
    · rw [hw, hlast, ← hn]; exact SList.ofSorted_even _
    · rw [hget w hw]; exact u1.even w
  · unfold slst
    dsimp only
    rw [hget 0 h0]; exact u1.known
  · simp
  · unfold par
    dsimp only
    rw [hget 0 h0]; exact u1.par0
  · intro w hw hw0
    unfold par
    dsimp only at hw ⊢
    rw [List.length_append, List.length_singleton, l1] at hw
    by_cases he : w = s.trees.length
    · rw [he, hlast, ← hn]; exact ⟨t, ht, rfl⟩
    · rw [hget w he]; exact u1.up w (by omega) hw0
  · rw [← e1, shown_eq, shown_eq]
    unfold slst
    dsimp only
    rw [hget 0 h0]
  · rw [List.length_append, l1]; omega

theorem Upright.yieldViews {t : Nat} : ∀ (els : List (List Nat)) {s : SHeap}, s.Upright → t < s.trees.length →
    (s.yieldViews t els).1.Upright ∧ shown (s.yieldViews t els).1.flat 0 = shown s.flat 0 := by
  intro els
  induction els with
  | nil => intro s u _; exact ⟨u, rfl⟩
  | cons el els ih =>
    intro s u ht
    rw [SHeap.yieldViews]
    obtain ⟨u1, e1, l1⟩ := u.newTree ht el
    obtain ⟨u2, e2, l2⟩ := u1.addChild t (s.newTree (some t) el).2
    obtain ⟨u3, e3⟩ := ih u2 (by omega)
    exact ⟨u3, e3.trans (e2.trans e1)⟩

/-- Making views does not change the project. -/
theorem Upright.view {s : SHeap} (u : s.Upright) {t : Nat} (ht : t < s.trees.length) (call : ViewCall) :
    (s.view t call).1.Upright ∧ shown (s.view t call).1.flat 0 = shown s.flat 0 := by
  cases call with
  | subtree select =>
    obtain ⟨u1, e1, l1⟩ := u.newTree ht ((s.flat.lst t).filter select)
    obtain ⟨u2, e2, l2⟩ := u1.addChild t (s.newTree (some t) ((s.flat.lst t).filter select)).2
    exact ⟨u2, e2.trans e1⟩
  | separate id => exact u.yieldViews _ ht
  | divide sep ids => exact u.yieldViews _ ht
  | subtrees σ select x rep => exact u.yieldViews _ ht
  | group ids distinct => exact u.yieldViews _ ht

/-- A parsed project. -/
theorem upright_ofEvents (evs : List Ev) : (ofEvents evs).Upright ∧ shown (ofEvents evs).flat 0 = evs := by
  obtain ⟨h1, h2⟩ := ofEvents_flat evs
  refine ⟨⟨fun t => ?_, fun a ha => ?_, ?_, ?_, fun t ht h0 => ?_⟩, ?_⟩
  · have := slst_inv h1 t
    unfold SList.Even
    rw [this.1, List.length_map]
  · obtain ⟨g1, g2, _⟩ := Heap.ofEvents_good evs
    have hc : (ofEvents evs).cells = (Heap.ofEvents evs).cells := by rw [← h2]; rfl
    rw [slst_values, h2] at ha
    have hl : (Heap.ofEvents evs).lst 0 = List.range evs.length := by unfold Heap.lst Heap.tree; rw [g2]; rfl
    rw [hl] at ha
    rw [hc, g1]
    simpa using ha
  · simp [ofEvents, newTree]
  · simp [ofEvents, newTree, par]
  · simp [ofEvents, newTree] at ht; omega
  · rw [h2]; exact shown_ofEvents evs

end SHeap

end PyFLP
