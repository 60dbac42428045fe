import Verif.TreeSpec
/-!
# `SortedList` of the package `sortedcontainers`, as `EventTree` uses it

`EventTree.lst` is a `SortedList` (`_events.py:424`).  The library keeps the values in chunks of bounded length, with the last
value of each chunk in a list of its own, and finds places by binary search, first among the last values and then in one chunk.
The chunks are split and merged as they grow and shrink.  `Tree.lean` has plain lists instead; here is the library's algorithm
(version 2 of `sortedcontainers/sortedlist.py`: `update`, `add`, `_expand`, `remove`, `_delete`; the tree of lengths that speeds
up access by number is left out: it only caches the lengths of the chunks).
-/

namespace PyFLP

/-- `SortedList.DEFAULT_LOAD_FACTOR`. -/
def loadFactor : Nat := 1000

/-- The loop of `bisect.bisect_left` and `bisect.bisect_right`; `before` says whether a value comes before the place that is
looked for. -/
def bisect (before : Nat → Bool) (l : List Nat) (lo hi : Nat) : Nat :=
  if lo < hi then
    let mid := (lo + hi) / 2
    if before (l.getD mid 0) then bisect before l (mid + 1) hi else bisect before l lo mid
  else lo
termination_by hi - lo

/-- The chunks `values[pos:pos + load] for pos in range(0, len(values), load)`. -/
def chunksOf (l : List Nat) : List (List Nat) :=
  if l = [] then [] else l.take loadFactor :: chunksOf (l.drop loadFactor)
termination_by l.length
decreasing_by
  have := List.length_pos_iff.2 (by assumption : ¬ l = [])
  rw [List.length_drop]; unfold loadFactor; omega

/-- `chunk[-1]`. -/
def lastOf (c : List Nat) : Nat := c.getLast?.getD 0

/-- A `SortedList` of `IndexedEvent`s (`_events.py:424`): the chunks `_lists` and their last values `_maxes`. -/
structure SList where
  lists : List (List Nat)
  maxes : List Nat

namespace SList

/-- `iter(values)`: `chain.from_iterable(self._lists)`. -/
def values (s : SList) : List Nat := s.lists.flatten

/-- `SortedList(values)` for values sorted already: `update` on an empty list. -/
def ofSorted (l : List Nat) : SList := ⟨chunksOf l, (chunksOf l).map lastOf⟩

/-- `_expand(pos)`: splits a chunk that has become too long. -/
def expand (s : SList) (pos : Nat) : SList :=
  let c := s.lists.getD pos []
  if 2 * loadFactor < c.length then
    ⟨s.lists.take pos ++ c.take loadFactor :: c.drop loadFactor :: s.lists.drop (pos + 1),
      s.maxes.take pos ++ lastOf (c.take loadFactor) :: lastOf (c.drop loadFactor) :: s.maxes.drop (pos + 1)⟩
  else s

/-- `add(value)` (called in `_events.py:527`). -/
def add (h : Heap) (s : SList) (a : Nat) : SList :=
  if s.maxes.isEmpty then ⟨s.lists ++ [[a]], s.maxes ++ [a]⟩
  else
    let pos := bisect (fun b => decide (h.r b ≤ h.r a)) s.maxes 0 s.maxes.length
    if pos = s.maxes.length then
      expand ⟨s.lists.set (pos - 1) (s.lists.getD (pos - 1) [] ++ [a]), s.maxes.set (pos - 1) a⟩ (pos - 1)
    else
      let c := s.lists.getD pos []
      let k := bisect (fun b => decide (h.r b ≤ h.r a)) c 0 c.length
      expand ⟨s.lists.set pos (c.take k ++ a :: c.drop k), s.maxes⟩ pos

/-- `_delete(pos, idx)`: merges a chunk that has become too short with a neighbour. -/
def delete (s : SList) (pos idx : Nat) : SList :=
  let c := (s.lists.getD pos []).eraseIdx idx
  let lists := s.lists.set pos c
  if loadFactor / 2 < c.length then ⟨lists, s.maxes.set pos (lastOf c)⟩
  else if 1 < lists.length then
    let pos := if pos = 0 then 1 else pos
    let merged := lists.getD (pos - 1) [] ++ lists.getD pos []
    expand ⟨(lists.set (pos - 1) merged).eraseIdx pos, (s.maxes.set (pos - 1) (lastOf merged)).eraseIdx pos⟩ (pos - 1)
  else if c.length ≠ 0 then ⟨lists, s.maxes.set pos (lastOf c)⟩
  else ⟨lists.eraseIdx pos, s.maxes.eraseIdx pos⟩

/-- `remove(value)` (called in `_events.py:535`): `ValueError` if no value compares equal. -/
def remove (h : Heap) (s : SList) (a : Nat) : Py SList :=
  if s.maxes.isEmpty then .error .valueError
  else
    let pos := bisect (fun b => decide (h.r b < h.r a)) s.maxes 0 s.maxes.length
    if pos = s.maxes.length then .error .valueError
    else
      let c := s.lists.getD pos []
      let idx := bisect (fun b => decide (h.r b < h.r a)) c 0 c.length
      match c[idx]? with
      | none => .error .indexError
      | some b => if h.r b = h.r a then .ok (s.delete pos idx) else .error .valueError

/-- The chunks are not empty, and `_maxes` has their last values. -/
def Inv (s : SList) : Prop := s.maxes = s.lists.map lastOf ∧ ∀ c ∈ s.lists, c ≠ []

end SList

/-! ### Searching -/

/-- The values with a property come before those without. -/
def Downward (p : Nat → Bool) (l : List Nat) : Prop := l.Pairwise fun a b => p b = true → p a = true

/-- Number of values at the start of a list with a property. -/
def cut (p : Nat → Bool) (l : List Nat) : Nat := (l.takeWhile p).length

theorem cut_le (p : Nat → Bool) (l : List Nat) : cut p l ≤ l.length := by
  unfold cut
  exact (List.takeWhile_sublist p).length_le

theorem cut_cons (p : Nat → Bool) (a : Nat) (l : List Nat) : cut p (a :: l) = if p a then cut p l + 1 else 0 := by
  unfold cut
  rw [List.takeWhile_cons]
  split <;> simp

/-- Which values come before the cut. -/
theorem cut_spec {p : Nat → Bool} : ∀ {l : List Nat}, Downward p l → ∀ i (hi : i < l.length), p l[i] = true ↔ i < cut p l := by
  intro l
  induction l with
  | nil => intro _ i hi; cases hi
  | cons a l ih =>
    intro hd i hi
    obtain ⟨d1, d2⟩ := List.pairwise_cons.1 hd
    rw [cut_cons]
    by_cases hp : p a = true
    · rw [if_pos hp]
      cases i with
      | zero => simp [hp]
      | succ i =>
        have := ih d2 i (by simpa using hi)
        simp only [List.getElem_cons_succ]
        rw [this]; omega
    · rw [if_neg hp]
      cases i with
      | zero => simp [hp]
      | succ i =>
        simp only [List.getElem_cons_succ]
        have hm : l[i]'(by simpa using hi) ∈ l := List.getElem_mem _
        constructor
        · intro h1; exact absurd (d1 _ hm h1) hp
        · intro h1; omega

theorem bisect_go {p : Nat → Bool} {l : List Nat} (hd : Downward p l) (lo hi : Nat) (h1 : lo ≤ cut p l) (h2 : cut p l ≤ hi)
    (h3 : hi ≤ l.length) : bisect p l lo hi = cut p l := by
  induction lo, hi using bisect.induct (before := p) (l := l) with
  | case1 lo hi hlt mid hb ih =>
    have hm : mid < l.length := by omega
    rw [bisect, if_pos hlt]
    dsimp only
    rw [if_pos hb]
    refine ih ?_ h2 h3
    have hb' : p l[mid] = true := by
      rwa [List.getD_eq_getElem?_getD, List.getElem?_eq_getElem hm] at hb
    have := (cut_spec hd mid hm).1 hb'
    omega
  | case2 lo hi hlt mid hb ih =>
    have hm : mid < l.length := by omega
    rw [bisect, if_pos hlt]
    dsimp only
    rw [if_neg hb]
    refine ih h1 ?_ (by omega)
    have hb' : ¬ p l[mid] = true := by
      rwa [List.getD_eq_getElem?_getD, List.getElem?_eq_getElem hm] at hb
    rw [cut_spec hd mid hm] at hb'
    omega
  | case3 lo hi hlt =>
    rw [bisect, if_neg hlt]
    omega

/-- Binary search finds what searching from the left finds. -/
theorem bisect_eq {p : Nat → Bool} {l : List Nat} (hd : Downward p l) : bisect p l 0 l.length = cut p l :=
  bisect_go hd 0 l.length (Nat.zero_le _) (cut_le p l) (Nat.le_refl _)

theorem cut_append_all {p : Nat → Bool} {a b : List Nat} (h : ∀ x ∈ a, p x = true) : cut p (a ++ b) = a.length + cut p b := by
  unfold cut
  rw [List.takeWhile_append_of_pos h, List.length_append]

theorem cut_append_lt {p : Nat → Bool} {a b : List Nat} (h : ∃ x ∈ a, ¬ p x = true) : cut p (a ++ b) = cut p a := by
  induction a with
  | nil => obtain ⟨x, hx, _⟩ := h; cases hx
  | cons c a ih =>
    rw [List.cons_append, cut_cons, cut_cons]
    by_cases hc : p c = true
    · rw [if_pos hc, if_pos hc]
      obtain ⟨x, hx, hp⟩ := h
      rcases List.mem_cons.1 hx with rfl | hx
      · exact absurd hc hp
      · rw [ih ⟨x, hx, hp⟩]
    · rw [if_neg hc, if_neg hc]

theorem lastOf_mem {c : List Nat} (hc : c ≠ []) : lastOf c ∈ c := by
  unfold lastOf
  rw [List.getLast?_eq_some_getLast hc]
  exact List.getLast_mem hc

theorem lastOf_append {a c : List Nat} (hc : c ≠ []) : lastOf (a ++ c) = lastOf c := by
  unfold lastOf
  rw [List.getLast?_append, List.getLast?_eq_some_getLast hc]
  rfl

/-- The last values are a part of the values. -/
theorem maxes_sublist {ls : List (List Nat)} (hne : ∀ c ∈ ls, c ≠ []) : (ls.map lastOf).Sublist ls.flatten := by
  induction ls with
  | nil => exact List.Sublist.refl _
  | cons c ls ih =>
    rw [List.map_cons, List.flatten_cons]
    have h1 : [lastOf c].Sublist c := List.singleton_sublist.2 (lastOf_mem (hne c (by simp)))
    exact h1.append (ih fun d hd => hne d (by simp [hd]))

theorem all_of_last {p : Nat → Bool} {c : List Nat} (hc : c ≠ []) (hd : Downward p c) (hl : p (lastOf c) = true) :
    ∀ x ∈ c, p x = true := by
  intro x hx
  rw [← List.dropLast_concat_getLast hc] at hx hd
  have e : lastOf c = c.getLast hc := by unfold lastOf; rw [List.getLast?_eq_some_getLast hc]; rfl
  rw [e] at hl
  rcases List.mem_append.1 hx with hx | hx
  · exact (List.pairwise_append.1 hd).2.2 x hx _ (by simp) hl
  · rw [List.mem_singleton.1 hx]; exact hl

/-- The chunk found by searching the last values. -/
theorem find_chunk {p : Nat → Bool} {ls : List (List Nat)} (hne : ∀ c ∈ ls, c ≠ []) (hd : Downward p ls.flatten) :
    (cut p (ls.map lastOf) = ls.length ∧ ∀ x ∈ ls.flatten, p x = true) ∨
    ∃ A c B, ls = A ++ c :: B ∧ A.length = cut p (ls.map lastOf) ∧ (∀ x ∈ A.flatten, p x = true) ∧ ¬ p (lastOf c) = true := by
  induction ls with
  | nil => exact .inl ⟨rfl, by simp⟩
  | cons c ls ih =>
    rw [List.flatten_cons] at hd
    obtain ⟨d1, d2, d3⟩ := List.pairwise_append.1 hd
    have hc := hne c (by simp)
    rw [List.map_cons, cut_cons]
    by_cases hp : p (lastOf c) = true
    · have hall := all_of_last hc d1 hp
      rw [if_pos hp]
      rcases ih (fun d hd => hne d (by simp [hd])) d2 with ⟨e1, e2⟩ | ⟨A, d, B, e1, e2, e3, e4⟩
      · refine .inl ⟨by rw [e1]; rfl, fun x hx => ?_⟩
        rw [List.flatten_cons, List.mem_append] at hx
        exact hx.elim (hall x) (e2 x)
      · refine .inr ⟨c :: A, d, B, by rw [e1]; rfl, by rw [List.length_cons, e2], fun x hx => ?_, e4⟩
        rw [List.flatten_cons, List.mem_append] at hx
        exact hx.elim (hall x) (e3 x)
    · rw [if_neg hp]
      exact .inr ⟨[], c, ls, rfl, rfl, by simp, hp⟩

/-! ### The operations on sorted values -/

namespace SList

theorem chunksOf_flatten (l : List Nat) : (chunksOf l).flatten = l := by
  induction l using chunksOf.induct with
  | case1 => rw [chunksOf, if_pos rfl]; rfl
  | case2 l hl ih => rw [chunksOf, if_neg hl, List.flatten_cons, ih, List.take_append_drop]

theorem chunksOf_ne (l : List Nat) : ∀ c ∈ chunksOf l, c ≠ [] := by
  induction l using chunksOf.induct with
  | case1 => rw [chunksOf, if_pos rfl]; simp
  | case2 l hl ih =>
    rw [chunksOf, if_neg hl]
    intro c hc
    rcases List.mem_cons.1 hc with rfl | hc
    · intro e
      have h1 := congrArg List.length e
      have h2 := List.length_pos_iff.2 hl
      rw [List.length_take, loadFactor, List.length_nil] at h1
      omega
    · exact ih c hc

theorem ofSorted_values (l : List Nat) : (ofSorted l).values = l := chunksOf_flatten l

theorem ofSorted_inv (l : List Nat) : (ofSorted l).Inv := ⟨rfl, chunksOf_ne l⟩

theorem expand_ok {s : SList} (hs : s.Inv) (pos : Nat) : (s.expand pos).Inv ∧ (s.expand pos).values = s.values := by
  unfold expand
  dsimp only
  split
  · rename_i hlt
    have hp : pos < s.lists.length := by
      rcases Nat.lt_or_ge pos s.lists.length with h | h
      · exact h
      · rw [List.getD_eq_getElem?_getD, List.getElem?_eq_none h] at hlt
        simp at hlt
    rw [List.getD_eq_getElem?_getD, List.getElem?_eq_getElem hp, Option.getD_some] at hlt ⊢
    generalize hc : s.lists[pos] = c at *
    have hsplit : s.lists = s.lists.take pos ++ c :: s.lists.drop (pos + 1) := by
      rw [← hc, List.getElem_cons_drop, List.take_append_drop]
    obtain ⟨h1, h2⟩ := hs
    have hlf : loadFactor = 1000 := rfl
    refine ⟨⟨?_, ?_⟩, ?_⟩
    · dsimp only
      rw [h1, List.map_append, List.map_cons, List.map_cons, List.map_take, List.map_drop]
    · intro d hd
      dsimp only at hd
      rcases List.mem_append.1 hd with hd | hd
      · exact h2 d (List.mem_of_mem_take hd)
      · rcases List.mem_cons.1 hd with rfl | hd
        · intro e
          have := congrArg List.length e
          rw [List.length_take, List.length_nil] at this; omega
        · rcases List.mem_cons.1 hd with rfl | hd
          · intro e
            have := congrArg List.length e
            rw [List.length_drop, List.length_nil] at this; omega
          · exact h2 d (List.mem_of_mem_drop hd)
    · unfold values
      dsimp only
      conv => rhs; rw [hsplit]
      rw [List.flatten_append, List.flatten_append, List.flatten_cons, List.flatten_cons, List.flatten_cons,
        ← List.append_assoc (c.take loadFactor), List.take_append_drop]
  · exact ⟨hs, rfl⟩

theorem getD_mid {A B : List (List Nat)} {c : List Nat} : (A ++ c :: B).getD A.length [] = c := by
  rw [List.getD_eq_getElem?_getD, List.getElem?_append_right (Nat.le_refl _)]
  simp

theorem set_mid {α : Type} {A B : List α} {c d : α} : (A ++ c :: B).set A.length d = A ++ d :: B := by
  rw [List.set_append_right _ _ (Nat.le_refl _)]
  simp

theorem eraseIdx_mid {α : Type} {A B : List α} {c : α} : (A ++ c :: B).eraseIdx A.length = A ++ B := by
  rw [List.eraseIdx_append_of_length_le (Nat.le_refl _)]
  simp

theorem flatten_mid {A B : List (List Nat)} {c : List Nat} : (A ++ c :: B).flatten = A.flatten ++ c ++ B.flatten := by
  rw [List.flatten_append, List.flatten_cons, List.append_assoc]

theorem inv_mid {A B : List (List Nat)} {c : List Nat} {m : Nat} (hA : ∀ d ∈ A, d ≠ []) (hB : ∀ d ∈ B, d ≠ []) (hc : c ≠ [])
    (hm : m = lastOf c) : (⟨A ++ c :: B, A.map lastOf ++ m :: B.map lastOf⟩ : SList).Inv := by
  refine ⟨by simp [hm], fun d hd => ?_⟩
  rcases List.mem_append.1 hd with hd | hd
  · exact hA d hd
  · rcases List.mem_cons.1 hd with rfl | hd
    · exact hc
    · exact hB d hd

theorem downward_le {h : Heap} {l : List Nat} (hp : l.Pairwise fun b c => h.r b ≤ h.r c) (a : Nat) :
    Downward (fun b => decide (h.r b ≤ h.r a)) l :=
  hp.imp fun {x y} hxy hy => by simp only [decide_eq_true_eq] at *; omega

theorem downward_lt {h : Heap} {l : List Nat} (hp : l.Pairwise fun b c => h.r b ≤ h.r c) (a : Nat) :
    Downward (fun b => decide (h.r b < h.r a)) l :=
  hp.imp fun {x y} hxy hy => by simp only [decide_eq_true_eq] at *; omega

/-- Adding to sorted chunks puts the value where adding to a plain sorted list puts it. -/
theorem add_ok {h : Heap} {s : SList} (hs : s.Inv) (hp : s.values.Pairwise fun b c => h.r b ≤ h.r c) (a : Nat) :
    (s.add h a).Inv ∧ (s.add h a).values = h.addSorted s.values a := by
  obtain ⟨ls, ms⟩ := s
  obtain ⟨h1, h2⟩ := hs
  dsimp only at h1 h2
  subst h1
  let p : Nat → Bool := fun b => decide (h.r b ≤ h.r a)
  have hadd : ∀ l : List Nat, h.addSorted l a = l.take (cut p l) ++ a :: l.drop (cut p l) := fun l => rfl
  have hdv : Downward p ls.flatten := downward_le hp a
  have hdm : Downward p (ls.map lastOf) := List.Pairwise.sublist (maxes_sublist h2) hdv
  unfold add
  dsimp only
  rw [hadd]
  show _ ∧ _ = List.take (cut p ls.flatten) ls.flatten ++ a :: List.drop (cut p ls.flatten) ls.flatten
  cases hls : ls with
  | nil =>
    refine ⟨⟨rfl, by simp⟩, rfl⟩
  | cons c0 ls0 =>
    have hemp : ((c0 :: ls0).map lastOf).isEmpty = false := rfl
    rw [hemp, ← hls]
    simp only [Bool.false_eq_true, if_false]
    show SList.Inv (if bisect p (ls.map lastOf) 0 (ls.map lastOf).length = (ls.map lastOf).length then _ else _) ∧ _
    rw [bisect_eq hdm]
    rcases find_chunk h2 hdv with ⟨e1, e2⟩ | ⟨A, c, B, e1, e2, e3, e4⟩
    · rw [e1, List.length_map, if_pos rfl]
      have hcut : cut p ls.flatten = ls.flatten.length := by
        have := cut_append_all (b := []) e2
        rwa [List.append_nil] at this
      rw [hcut, List.take_length, List.drop_length]
      have hne : ls ≠ [] := by rw [hls]; simp
      obtain ⟨A, c, hA⟩ : ∃ A c, ls = A ++ [c] := ⟨ls.dropLast, ls.getLast hne, (List.dropLast_concat_getLast hne).symm⟩
      have hlen : ls.length - 1 = A.length := by rw [hA]; simp
      rw [hlen, hA]
      rw [show (A ++ [c]).getD A.length [] = c from getD_mid, List.map_append, List.map_cons, List.map_nil,
        show (A ++ [c]).set A.length (c ++ [a]) = A ++ [c ++ [a]] from set_mid,
        show (A.map lastOf ++ [lastOf c]).set A.length a = A.map lastOf ++ [a] by
          have := set_mid (A := A.map lastOf) (B := []) (c := lastOf c) (d := a)
          rwa [List.length_map] at this]
      have hi : (⟨A ++ [c ++ [a]], A.map lastOf ++ [a]⟩ : SList).Inv :=
        inv_mid (B := []) (fun d hd => h2 d (by rw [hA]; simp [hd])) (by simp) (by simp)
          (by rw [lastOf_append (by simp)]; rfl)
      obtain ⟨x1, x2⟩ := expand_ok hi A.length
      refine ⟨x1, x2.trans ?_⟩
      simp [values]
    · have hlt : A.length < (ls.map lastOf).length := by rw [List.length_map, e1]; simp
      rw [if_neg (by omega), ← e2, e1, getD_mid]
      have hc : c ≠ [] := h2 c (by rw [e1]; simp)
      have hdc : Downward p c := by
        rw [e1, flatten_mid] at hdv
        exact List.Pairwise.sublist ((List.sublist_append_right _ _).trans (List.sublist_append_left _ _)) hdv
      show SList.Inv (expand ⟨(A ++ c :: B).set A.length (c.take (bisect p c 0 c.length) ++ a :: c.drop (bisect p c 0 c.length)), _⟩ _) ∧
        values (expand ⟨(A ++ c :: B).set A.length (c.take (bisect p c 0 c.length) ++ a :: c.drop (bisect p c 0 c.length)), _⟩ _) = _
      rw [bisect_eq hdc, set_mid, flatten_mid, List.append_assoc, cut_append_all e3, cut_append_lt ⟨_, lastOf_mem hc, e4⟩,
        List.take_length_add_append, List.drop_length_add_append, List.take_append_of_le_length (cut_le p c),
        List.drop_append_of_le_length (cut_le p c), List.map_append, List.map_cons]
      have hk : cut p c < c.length := by
        have hpos := List.length_pos_iff.2 hc
        have hl : lastOf c = c[c.length - 1]'(by omega) := by
          unfold lastOf
          rw [List.getLast?_eq_getElem?, List.getElem?_eq_getElem (by omega)]; rfl
        rw [hl, cut_spec hdc _ (by omega)] at e4
        have := cut_le p c
        omega
      have hi : (⟨A ++ (c.take (cut p c) ++ a :: c.drop (cut p c)) :: B, A.map lastOf ++ lastOf c :: B.map lastOf⟩ : SList).Inv := by
        refine inv_mid (fun d hd => h2 d (by rw [e1]; simp [hd])) (fun d hd => h2 d (by rw [e1]; simp [hd])) (by simp) ?_
        have hd0 : c.drop (cut p c) ≠ [] := fun e => by
          have := congrArg List.length e
          rw [List.length_drop, List.length_nil] at this; omega
        rw [lastOf_append (by simp), show a :: c.drop (cut p c) = [a] ++ c.drop (cut p c) from rfl, lastOf_append hd0]
        conv => lhs; rw [← List.take_append_drop (cut p c) c]
        exact lastOf_append hd0
      obtain ⟨x1, x2⟩ := expand_ok hi A.length
      refine ⟨x1, x2.trans ?_⟩
      unfold values
      rw [flatten_mid]
      simp [List.append_assoc]

theorem delete_ok {A B : List (List Nat)} {c : List Nat} (h2 : ∀ d ∈ A ++ c :: B, d ≠ []) (idx : Nat) :
    (delete ⟨A ++ c :: B, (A ++ c :: B).map lastOf⟩ A.length idx).Inv ∧
    (delete ⟨A ++ c :: B, (A ++ c :: B).map lastOf⟩ A.length idx).values = A.flatten ++ c.eraseIdx idx ++ B.flatten := by
  have hA : ∀ d ∈ A, d ≠ [] := fun d hd => h2 d (by simp [hd])
  have hB : ∀ d ∈ B, d ≠ [] := fun d hd => h2 d (by simp [hd])
  unfold delete
  dsimp only
  rw [getD_mid, set_mid, List.map_append, List.map_cons]
  have hset : ∀ x, (A.map lastOf ++ lastOf c :: B.map lastOf).set A.length x = A.map lastOf ++ x :: B.map lastOf := fun x => by
    have := set_mid (A := A.map lastOf) (B := B.map lastOf) (c := lastOf c) (d := x)
    rwa [List.length_map] at this
  generalize c.eraseIdx idx = e
  have keep : e ≠ [] → (⟨A ++ e :: B, (A.map lastOf ++ lastOf c :: B.map lastOf).set A.length (lastOf e)⟩ : SList).Inv ∧
      values ⟨A ++ e :: B, (A.map lastOf ++ lastOf c :: B.map lastOf).set A.length (lastOf e)⟩ = A.flatten ++ e ++ B.flatten := by
    intro he
    rw [hset]
    exact ⟨inv_mid hA hB he rfl, flatten_mid⟩
  split
  · rename_i hlt
    exact keep (fun h => by rw [h] at hlt; simp at hlt)
  · split
    · rename_i hlen
      by_cases hA0 : A = []
      · subst hA0
        cases hBc : B with
        | nil => rw [hBc] at hlen; simp at hlen
        | cons b B' =>
          have hb : b ≠ [] := hB b (by rw [hBc]; simp)
          have hB' : ∀ d ∈ B', d ≠ [] := fun d hd => hB d (by rw [hBc]; simp [hd])
          have hi : (⟨(e ++ b) :: B', lastOf (e ++ b) :: B'.map lastOf⟩ : SList).Inv :=
            inv_mid (A := []) (by simp) hB' (by simp [hb]) rfl
          obtain ⟨x1, x2⟩ := expand_ok hi 0
          refine ⟨x1, x2.trans ?_⟩
          simp [values, List.append_assoc]
      · have hpos : A.length ≠ 0 := fun h => hA0 (List.eq_nil_of_length_eq_zero h)
        rw [if_neg hpos]
        obtain ⟨A', d, hA'⟩ : ∃ A' d, A = A' ++ [d] := ⟨A.dropLast, A.getLast hA0, (List.dropLast_concat_getLast hA0).symm⟩
        have hlen' : A.length - 1 = A'.length := by rw [hA']; simp
        have hd : d ≠ [] := hA d (by rw [hA']; simp)
        rw [hlen', getD_mid]
        have e1 : A ++ e :: B = A' ++ d :: (e :: B) := by rw [hA']; simp
        have e2 : (A ++ e :: B).getD A'.length [] = d := by rw [e1]; exact getD_mid
        have e3 : (A ++ e :: B).set A'.length (d ++ e) = (A' ++ [d ++ e]) ++ e :: B := by rw [e1, set_mid]; simp
        have e4 : A.length = (A' ++ [d ++ e]).length := by rw [hA']; simp
        have e5 : ((A ++ e :: B).set A'.length (d ++ e)).eraseIdx A.length = A' ++ (d ++ e) :: B := by
          rw [e3, e4, eraseIdx_mid]; simp
        have m1 : ((A.map lastOf ++ lastOf c :: B.map lastOf).set A'.length (lastOf (d ++ e))).eraseIdx A.length =
            A'.map lastOf ++ lastOf (d ++ e) :: B.map lastOf := by
          have f1 : A.map lastOf ++ lastOf c :: B.map lastOf = A'.map lastOf ++ lastOf d :: (lastOf c :: B.map lastOf) := by
            rw [hA']; simp
          have f2 := set_mid (A := A'.map lastOf) (B := lastOf c :: B.map lastOf) (c := lastOf d) (d := lastOf (d ++ e))
          rw [List.length_map] at f2
          have f3 := eraseIdx_mid (A := A'.map lastOf ++ [lastOf (d ++ e)]) (B := B.map lastOf) (c := lastOf c)
          have f4 : A.length = (A'.map lastOf ++ [lastOf (d ++ e)]).length := by rw [hA']; simp
          rw [f1, f2, f4, show A'.map lastOf ++ lastOf (d ++ e) :: lastOf c :: B.map lastOf =
            (A'.map lastOf ++ [lastOf (d ++ e)]) ++ lastOf c :: B.map lastOf by simp, f3]
          simp
        rw [e2, e5, m1]
        have hi : (⟨A' ++ (d ++ e) :: B, A'.map lastOf ++ lastOf (d ++ e) :: B.map lastOf⟩ : SList).Inv :=
          inv_mid (fun x hx => hA x (by rw [hA']; simp [hx])) hB (by simp [hd]) rfl
        obtain ⟨x1, x2⟩ := expand_ok hi A'.length
        refine ⟨x1, x2.trans ?_⟩
        rw [hA']
        simp [values, List.append_assoc]
    · rename_i hlen
      have hAB : A = [] ∧ B = [] := by
        simp only [List.length_append, List.length_cons] at hlen
        constructor <;> apply List.eq_nil_of_length_eq_zero <;> omega
      obtain ⟨rfl, rfl⟩ := hAB
      split
      · rename_i hne
        exact keep (fun h => hne (by rw [h]; rfl))
      · rename_i hz
        have : e = [] := List.eq_nil_of_length_eq_zero (by omega)
        subst this
        exact ⟨⟨rfl, by simp⟩, rfl⟩

/-- Removing from sorted chunks removes what removing from a plain sorted list removes, and raises the same exception. -/
theorem remove_ok {h : Heap} {s : SList} (hs : s.Inv) (hp : s.values.Pairwise fun b c => h.r b ≤ h.r c) (a : Nat) :
    match s.remove h a with
    | .error e => h.removeSorted s.values a = .error e
    | .ok s' => s'.Inv ∧ h.removeSorted s.values a = .ok s'.values := by
  obtain ⟨ls, ms⟩ := s
  obtain ⟨h1, h2⟩ := hs
  dsimp only at h1 h2
  subst h1
  let p : Nat → Bool := fun b => decide (h.r b < h.r a)
  have hrem : ∀ l : List Nat, h.removeSorted l a = match l[cut p l]? with
    | none => .error .valueError
    | some b => if h.r b = h.r a then .ok (l.eraseIdx (cut p l)) else .error .valueError := fun l => rfl
  have hdv : Downward p ls.flatten := downward_lt hp a
  have hdm : Downward p (ls.map lastOf) := List.Pairwise.sublist (maxes_sublist h2) hdv
  rw [hrem]
  unfold remove
  dsimp only [values]
  cases hls : ls with
  | nil => rfl
  | cons c0 ls0 =>
    have hemp : ((c0 :: ls0).map lastOf).isEmpty = false := rfl
    rw [hemp, ← hls]
    simp only [Bool.false_eq_true, if_false]
    rw [show bisect (fun b => decide (h.r b < h.r a)) (ls.map lastOf) 0 (ls.map lastOf).length = cut p (ls.map lastOf) from
      bisect_eq hdm]
    rcases find_chunk h2 hdv with ⟨e1, e2⟩ | ⟨A, c, B, e1, e2, e3, e4⟩
    · rw [e1, List.length_map, if_pos rfl]
      have hcut : cut p ls.flatten = ls.flatten.length := by
        have := cut_append_all (b := []) e2
        rwa [List.append_nil] at this
      dsimp only
      rw [hcut, List.getElem?_eq_none (Nat.le_refl _)]
    · have hlt : A.length < (ls.map lastOf).length := by rw [List.length_map, e1]; simp
      have hc : c ≠ [] := h2 c (by rw [e1]; simp)
      have hdc : Downward p c := by
        rw [e1, flatten_mid] at hdv
        exact List.Pairwise.sublist ((List.sublist_append_right _ _).trans (List.sublist_append_left _ _)) hdv
      have hk : cut p c < c.length := by
        have hpos := List.length_pos_iff.2 hc
        have hl : lastOf c = c[c.length - 1]'(by omega) := by
          unfold lastOf
          rw [List.getLast?_eq_getElem?, List.getElem?_eq_getElem (by omega)]; rfl
        rw [hl, cut_spec hdc _ (by omega)] at e4
        have := cut_le p c
        omega
      rw [← e2, if_neg (by omega), e1, getD_mid,
        show bisect (fun b => decide (h.r b < h.r a)) c 0 c.length = cut p c from bisect_eq hdc]
      have hcut : cut p (A ++ c :: B).flatten = A.flatten.length + cut p c := by
        rw [flatten_mid, List.append_assoc, cut_append_all e3, cut_append_lt ⟨_, lastOf_mem hc, e4⟩]
      have hget : (A ++ c :: B).flatten[cut p (A ++ c :: B).flatten]? = c[cut p c]? := by
        rw [hcut, flatten_mid, List.append_assoc, List.getElem?_append_right (by omega),
          List.getElem?_append_left (by omega)]
        congr 1
        omega
      rw [hget, List.getElem?_eq_getElem hk]
      dsimp only
      by_cases he : h.r c[cut p c] = h.r a
      · rw [if_pos he, if_pos he]
        dsimp only
        obtain ⟨x1, x2⟩ := delete_ok (A := A) (B := B) (c := c) (fun d hd => h2 d (by rw [e1]; exact hd)) (cut p c)
        refine ⟨x1, ?_⟩
        congr 1
        refine Eq.trans ?_ x2.symm
        rw [hcut, flatten_mid, List.append_assoc, List.eraseIdx_append_of_length_le (by omega),
          show A.flatten.length + cut p c - A.flatten.length = cut p c by omega,
          List.eraseIdx_append_of_lt_length hk, List.append_assoc]
      · rw [if_neg he, if_neg he]

end SList

end PyFLP
