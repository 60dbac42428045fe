import Verif.TreeOps
/-!
# Lemmas about the view-producing loops
-/

namespace PyFLP

theorem divideLoop_spec (idOf : Nat → Nat) (sep : Nat) (ids : List Nat) (l el : List Nat) (first : Bool) :
    ∃ s0 segs, l = s0 ++ segs.flatten ∧
      divideLoop idOf sep ids l el first =
        (el ++ s0.filter (fun a => decide (idOf a ∈ ids))) ::
          segs.map (fun s => s.filter (fun a => decide (idOf a ∈ ids))) ∧
      (∀ s ∈ segs, ∃ a tl, s = a :: tl ∧ idOf a = sep ∧ ∀ b ∈ tl, idOf b ≠ sep) ∧
      (first = false → ∀ b ∈ s0, idOf b ≠ sep) ∧
      (first = true → (∀ b ∈ s0, idOf b ≠ sep) ∧ segs = [] ∨
        ∃ p a q, s0 = p ++ a :: q ∧ idOf a = sep ∧ (∀ b ∈ p, idOf b ≠ sep) ∧ ∀ b ∈ q, idOf b ≠ sep) := by
  induction l generalizing el first with
  | nil =>
    refine ⟨[], [], rfl, by simp [divideLoop], by simp, by simp, fun _ => .inl ⟨by simp, rfl⟩⟩
  | cons a l ih =>
    unfold divideLoop
    by_cases hs : idOf a = sep
    · rw [if_pos hs]
      cases first with
      | true =>
        rw [if_pos rfl]
        dsimp only
        obtain ⟨s0, segs, h1, h2, h3, h4, _⟩ := ih (if idOf a ∈ ids then el ++ [a] else el) false
        refine ⟨a :: s0, segs, by rw [h1]; rfl, ?_, h3, by simp, fun _ => .inr ⟨[], a, s0, rfl, hs, by simp, h4 rfl⟩⟩
        rw [h2, List.nil_append, List.filter_cons]
        by_cases hi : idOf a ∈ ids <;> simp [hi]
      | false =>
        rw [if_neg (by simp)]
        dsimp only
        obtain ⟨s0, segs, h1, h2, h3, h4, _⟩ := ih (if idOf a ∈ ids then [] ++ [a] else []) false
        refine ⟨[], (a :: s0) :: segs, by rw [h1]; simp, ?_, ?_, by simp, by simp⟩
        · rw [h2, List.map_cons, List.filter_cons]
          by_cases hi : idOf a ∈ ids <;> simp [hi]
        · intro s hm
          rcases List.mem_cons.1 hm with rfl | hm
          · exact ⟨a, s0, rfl, hs, h4 rfl⟩
          · exact h3 s hm
    · rw [if_neg hs]
      dsimp only
      obtain ⟨s0, segs, h1, h2, h3, h4, h5⟩ := ih (if idOf a ∈ ids then el ++ [a] else el) first
      refine ⟨a :: s0, segs, by rw [h1]; rfl, ?_, h3, ?_, ?_⟩
      · rw [h2, List.nil_append, List.filter_cons]
        by_cases hi : idOf a ∈ ids <;> simp [hi]
      · intro hf b hb
        rcases List.mem_cons.1 hb with rfl | hb
        · exact hs
        · exact h4 hf b hb
      · intro hf
        rcases h5 hf with ⟨k1, k2⟩ | ⟨p, c, q, k1, k2, k3, k4⟩
        · refine .inl ⟨fun b hb => ?_, k2⟩
          rcases List.mem_cons.1 hb with rfl | hb
          · exact hs
          · exact k1 b hb
        · refine .inr ⟨a :: p, c, q, by rw [k1]; rfl, k2, fun b hb => ?_, k4⟩
          rcases List.mem_cons.1 hb with rfl | hb
          · exact hs
          · exact k3 b hb

/-- Events with an answer other than `None`. -/
def chosen (l : List (Nat × Option Bool)) : List Nat := (l.filter fun x => x.2.isSome).map Prod.fst

theorem chosen_append (l m : List (Nat × Option Bool)) : chosen (l ++ m) = chosen l ++ chosen m := by
  simp [chosen]

theorem subtreesLoop_spec (l : List (Nat × Option Bool)) (el : List Nat) (rep : Int) :
    (subtreesLoop l el rep = [] ∧ (rep = 0 ∨ ∀ x ∈ l, x.2 ≠ some false)) ∨
    ∃ (s0 : List (Nat × Option Bool)) (segs : List (List (Nat × Option Bool))) (x : Nat)
        (rest : List (Nat × Option Bool)), l = s0 ++ segs.flatten ++ (x, some false) :: rest ∧
      subtreesLoop l el rep = (el ++ chosen s0) :: segs.map chosen ∧
      (∀ y ∈ s0, y.2 ≠ some false) ∧
      (∀ s ∈ segs, ∃ a tl, s = (a, some false) :: tl ∧ ∀ y ∈ tl, y.2 ≠ some false) ∧
      (((segs.length : Int) + 1 = rep) ∨ ∀ y ∈ rest, y.2 ≠ some false) := by
  induction l generalizing el rep with
  | nil => exact .inl ⟨rfl, .inr (by simp)⟩
  | cons y l ih =>
    obtain ⟨a, ans⟩ := y
    unfold subtreesLoop
    by_cases hr : rep = 0
    · exact .inl ⟨by rw [if_pos hr], .inl hr⟩
    · rw [if_neg hr]
      match ans with
      | some false =>
        dsimp only
        right
        rcases ih [a] (rep - 1) with ⟨h1, h2⟩ | ⟨s0, segs, x, rest, h1, h2, h3, h4, h5⟩
        · refine ⟨[], [], a, l, by simp, by simp [h1, chosen], by simp, by simp, ?_⟩
          rcases h2 with h2 | h2
          · left; simp; omega
          · exact .inr h2
        · refine ⟨[], ((a, some false) :: s0) :: segs, x, rest, ?_, ?_, by simp, ?_, ?_⟩
          · rw [h1]; simp
          · rw [h2]; simp [chosen]
          · intro s hs
            rcases List.mem_cons.1 hs with rfl | hs
            · exact ⟨a, s0, rfl, h3⟩
            · exact h4 s hs
          · rcases h5 with h5 | h5
            · left; simp; omega
            · exact .inr h5
      | some true =>
        dsimp only
        rcases ih (el ++ [a]) rep with ⟨h1, h2⟩ | ⟨s0, segs, x, rest, h1, h2, h3, h4, h5⟩
        · left
          refine ⟨h1, h2.imp_right fun h2 y hy => ?_⟩
          rcases List.mem_cons.1 hy with rfl | hy
          · simp
          · exact h2 y hy
        · right
          refine ⟨(a, some true) :: s0, segs, x, rest, by rw [h1]; rfl, by rw [h2]; simp [chosen], ?_, h4, h5⟩
          intro y hy
          rcases List.mem_cons.1 hy with rfl | hy
          · simp
          · exact h3 y hy
      | none =>
        dsimp only
        rcases ih el rep with ⟨h1, h2⟩ | ⟨s0, segs, x, rest, h1, h2, h3, h4, h5⟩
        · left
          refine ⟨h1, h2.imp_right fun h2 y hy => ?_⟩
          rcases List.mem_cons.1 hy with rfl | hy
          · simp
          · exact h2 y hy
        · right
          refine ⟨(a, none) :: s0, segs, x, rest, by rw [h1]; rfl, by rw [h2]; simp [chosen], ?_, h4, h5⟩
          intro y hy
          rcases List.mem_cons.1 hy with rfl | hy
          · simp
          · exact h3 y hy

theorem runSelect_fst {σ : Type} (select : σ → Nat → Option Bool × σ) (s : σ) (l : List Nat) :
    (runSelect select s l).map Prod.fst = l := by
  induction l generalizing s with
  | nil => rfl
  | cons a l ih => simp [runSelect, ih]

theorem zipLongest_get (ls : List (List Nat)) (n k : Nat) :
    (zipLongest ls n)[k]? = if k < n then some (ls.filterMap fun l => l[k]?) else none := by
  induction n generalizing ls k with
  | zero => simp [zipLongest]
  | succ n ih =>
    cases k with
    | zero =>
      simp only [zipLongest, List.getElem?_cons_zero, Nat.zero_lt_succ, if_true]
      congr 2
      funext l; cases l <;> rfl
    | succ k =>
      simp only [zipLongest, List.getElem?_cons_succ, ih, Nat.succ_lt_succ_iff, List.filterMap_map]
      congr 3
      funext l; cases l <;> simp

theorem zipLongest_length (ls : List (List Nat)) (n : Nat) : (zipLongest ls n).length = n := by
  induction n generalizing ls with
  | zero => rfl
  | succ n ih => simp [zipLongest, ih]

theorem sublist_of_flatten {α : Type} {ls : List (List α)} {l : List α} (h : l ∈ ls) : l.Sublist ls.flatten := by
  induction ls with
  | nil => cases h
  | cons a ls ih =>
    rw [List.flatten_cons]
    rcases List.mem_cons.1 h with rfl | h
    · exact List.sublist_append_left _ _
    · exact (ih h).trans (List.sublist_append_right _ _)

/-- Every list made by `divide` is a sublist of the tree's list. -/
theorem divideLoop_sublist {idOf : Nat → Nat} {sep : Nat} {ids l el : List Nat}
    (h : el ∈ divideLoop idOf sep ids l [] true) : el.Sublist l := by
  obtain ⟨s0, segs, h1, h2, _⟩ := divideLoop_spec idOf sep ids l [] true
  rw [h2] at h
  rw [h1]
  rcases List.mem_cons.1 h with rfl | h
  · rw [List.nil_append]
    exact List.filter_sublist.trans (List.sublist_append_left _ _)
  · obtain ⟨s, hs, rfl⟩ := List.mem_map.1 h
    exact List.filter_sublist.trans ((sublist_of_flatten hs).trans (List.sublist_append_right _ _))

theorem chosen_sublist (l : List (Nat × Option Bool)) : (chosen l).Sublist (l.map Prod.fst) :=
  List.filter_sublist.map _

theorem subtreesLoop_sublist {l : List (Nat × Option Bool)} {rep : Int} {el : List Nat}
    (h : el ∈ subtreesLoop l [] rep) : el.Sublist (l.map Prod.fst) := by
  rcases subtreesLoop_spec l [] rep with ⟨h1, _⟩ | ⟨s0, segs, x, rest, h1, h2, _⟩
  · rw [h1] at h; cases h
  · rw [h2] at h
    have key : ∀ s : List (Nat × Option Bool), s.Sublist l → (chosen s).Sublist (l.map Prod.fst) :=
      fun s hs => (chosen_sublist s).trans (hs.map _)
    rcases List.mem_cons.1 h with rfl | h
    · apply key
      rw [h1, List.append_assoc]
      exact List.sublist_append_left _ _
    · obtain ⟨s, hs, rfl⟩ := List.mem_map.1 h
      apply key
      rw [h1]
      exact ((sublist_of_flatten hs).trans (List.sublist_append_right _ _)).trans (List.sublist_append_left _ _)

namespace Heap

/-- Sorting a selection of a sorted list gives the selection in the list's order. -/
theorem sortCells_select {h : Heap} {l el : List Nat} (s : h.Sorted l) (hn : el.Nodup) (hs : ∀ a ∈ el, a ∈ l) :
    h.sortCells el = l.filter fun a => decide (a ∈ el) := by
  have hperm : (h.sortCells el).Perm el := sortBy_perm _ _
  have hp2 : (l.filter fun a => decide (a ∈ el)).Perm el := by
    rw [List.perm_ext_iff_of_nodup (s.nodup.filter _) hn]
    intro a
    simp only [List.mem_filter, decide_eq_true_eq]
    exact ⟨fun h => h.2, fun h => ⟨hs a h, h⟩⟩
  have hsort : (h.sortCells el).Pairwise (fun a b => decide (h.r a ≤ h.r b) = true) :=
    pairwise_sortBy (fun a b c h1 h2 => by simp at *; omega) (fun a b => by simp; omega) _
  have hinj : ∀ a ∈ l, ∀ b ∈ l, h.r a = h.r b → a = b := by
    intro a ha b hb e
    obtain ⟨p, q, h1, _⟩ := takeWhile_lt s ha
    subst h1
    rw [Sorted, List.pairwise_append] at s
    obtain ⟨_, s2, s3⟩ := s
    rw [List.pairwise_cons] at s2
    rcases List.mem_append.1 hb with hb | hb
    · have := s3 b hb a (by simp); omega
    · rcases List.mem_cons.1 hb with rfl | hb
      · rfl
      · have := s2.1 b hb; omega
  refine List.Perm.eq_of_pairwise (le := fun a b => h.r a ≤ h.r b) ?_ ?_ ?_ (hperm.trans hp2.symm)
  · intro a b ha hb h1 h2
    exact hinj a (hs a (hperm.mem_iff.1 ha)) b (List.mem_filter.1 hb).1 (by omega)
  · exact hsort.imp (by simp)
  · exact (s.sub List.filter_sublist).imp (by omega)

end Heap

/-- The `k`-th list made by `group`. -/
theorem groupLists_get (idOf : Nat → Nat) (l ids : List Nat) (k : Nat) :
    (groupLists idOf l ids)[k]? =
      if k < (groupLists idOf l ids).length then
        some (ids.filterMap fun i => (l.filter fun a => idOf a = i)[k]?) else none := by
  unfold groupLists
  dsimp only
  rw [zipLongest_length, zipLongest_get, List.filterMap_map]
  rfl

theorem group_members {idOf : Nat → Nat} {l ids : List Nat} (hi : ids.Nodup) (k : Nat) :
    (ids.filterMap fun i => (l.filter fun a => idOf a = i)[k]?).Nodup ∧
    ∀ a ∈ (ids.filterMap fun i => (l.filter fun a => idOf a = i)[k]?), a ∈ l := by
  constructor
  · rw [List.Nodup, List.pairwise_filterMap]
    refine List.Pairwise.imp ?_ hi
    intro i j hij b hb c hc e
    subst e
    have h1 := (List.mem_filter.1 (List.mem_of_getElem? hb)).2
    have h2 := (List.mem_filter.1 (List.mem_of_getElem? hc)).2
    simp only [decide_eq_true_eq] at h1 h2
    exact hij (h1.symm.trans h2)
  · intro a ha
    obtain ⟨i, _, h2⟩ := List.mem_filterMap.1 ha
    exact (List.mem_filter.1 (List.mem_of_getElem? h2)).1

theorem groupLists_mem {idOf : Nat → Nat} {l ids el : List Nat} (h : el ∈ groupLists idOf l ids) :
    ∃ k : Nat, el = ids.filterMap fun i => (l.filter fun a => idOf a = i)[k]? := by
  obtain ⟨k, hk, rfl⟩ := List.getElem_of_mem h
  refine ⟨k, ?_⟩
  have := groupLists_get idOf l ids k
  rw [if_pos hk, List.getElem?_eq_getElem hk] at this
  injection this

end PyFLP
