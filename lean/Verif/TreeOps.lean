import Verif.TreeLemmas
/-!
# Insertion and view creation in good hierarchies
-/

namespace PyFLP

theorem sortBy_of_pairwise {α : Type} {le : α → α → Bool} {l : List α} (h : l.Pairwise fun a b => le a b) :
    sortBy le l = l := by
  induction l with
  | nil => rfl
  | cons a l ih =>
    rw [List.pairwise_cons] at h
    rw [sortBy, ih h.2]
    cases l with
    | nil => rfl
    | cons b l => rw [insertBy, if_pos (h.1 b (by simp))]

theorem insertBy_perm {α : Type} (le : α → α → Bool) (a : α) (l : List α) : (insertBy le a l).Perm (a :: l) := by
  induction l with
  | nil => exact List.Perm.refl _
  | cons b l ih =>
    rw [insertBy]
    split
    · exact List.Perm.refl _
    · exact (ih.cons b).trans (List.Perm.swap a b l)

theorem sortBy_perm {α : Type} (le : α → α → Bool) (l : List α) : (sortBy le l).Perm l := by
  induction l with
  | nil => exact List.Perm.refl _
  | cons a l ih => exact (insertBy_perm le a _).trans (ih.cons a)

theorem pairwise_sortBy {α : Type} {le : α → α → Bool} (trans : ∀ a b c, le a b = true → le b c = true → le a c = true)
    (total : ∀ a b, le a b = true ∨ le b a = true) (l : List α) :
    (sortBy le l).Pairwise fun a b => le a b = true := by
  induction l with
  | nil => exact List.Pairwise.nil
  | cons a l ih =>
    rw [sortBy]
    generalize sortBy le l = m at ih
    induction m with
    | nil => exact List.pairwise_singleton _ _
    | cons b m ihm =>
      rw [List.pairwise_cons] at ih
      rw [insertBy]
      split
      · next hab =>
        refine List.pairwise_cons.2 ⟨fun c hc => ?_, List.pairwise_cons.2 ih⟩
        rcases List.mem_cons.1 hc with rfl | hc
        · exact hab
        · exact trans a b c hab (ih.1 c hc)
      · next hab =>
        refine List.pairwise_cons.2 ⟨fun c hc => ?_, ihm ih.2⟩
        rcases List.mem_cons.1 ((insertBy_perm le a m).mem_iff.1 hc) with rfl | hc
        · exact (total b c).resolve_right hab
        · exact ih.1 c hc

namespace Heap

/-- In a list sorted by position, `SortedList.add` of a new position puts the
value between the smaller and the greater ones. -/
theorem addSorted_spec {h : Heap} {l : List Nat} (s : h.Sorted l) {a : Nat} (hne : ∀ b ∈ l, h.r b ≠ h.r a) :
    h.addSorted l a =
      l.filter (fun b => decide (h.r b < h.r a)) ++ a :: l.filter (fun b => !decide (h.r b < h.r a)) := by
  have key : ∀ l : List Nat, h.Sorted l → (∀ b ∈ l, h.r b ≠ h.r a) →
      ∃ p q, l = p ++ q ∧ (l.takeWhile fun b => decide (h.r b ≤ h.r a)) = p ∧
        l.filter (fun b => decide (h.r b < h.r a)) = p ∧
        l.filter (fun b => !decide (h.r b < h.r a)) = q := by
    intro l
    induction l with
    | nil => intro _ _; exact ⟨[], [], rfl, rfl, rfl, rfl⟩
    | cons c l ih =>
      intro s hne
      rw [Sorted, List.pairwise_cons] at s
      by_cases hc : h.r c < h.r a
      · obtain ⟨p, q, h1, h2, h3, h4⟩ := ih s.2 (fun b hb => hne b (by simp [hb]))
        refine ⟨c :: p, q, by rw [h1]; rfl, ?_, ?_, ?_⟩
        · rw [List.takeWhile_cons, if_pos (by simp; omega), h2]
        · rw [List.filter_cons, if_pos (by simpa using hc), h3]
        · rw [List.filter_cons, if_neg (by simpa using hc), h4]
      · have hgt : h.r a < h.r c := by have := hne c (by simp); omega
        refine ⟨[], c :: l, rfl, ?_, ?_, ?_⟩
        · rw [List.takeWhile_cons, if_neg (by simp; omega)]
        · rw [List.filter_eq_nil_iff]
          intro b hb
          rcases List.mem_cons.1 hb with rfl | hb
          · simpa using hc
          · have := s.1 b hb; simp; omega
        · rw [List.filter_eq_self]
          intro b hb
          rcases List.mem_cons.1 hb with rfl | hb
          · simpa using hc
          · have := s.1 b hb; simp; omega
  obtain ⟨p, q, h1, h2, h3, h4⟩ := key l s hne
  unfold addSorted
  rw [h2, h3, h4]
  subst h1
  simp

theorem cell_append_lt {h : Heap} {c : Cell} {a : Nat} (ha : a < h.cells.length) :
    ({ h with cells := h.cells ++ [c] } : Heap).cell a = h.cell a := by
  simp [cell, List.getD_eq_getElem?_getD, List.getElem?_append_left ha]

theorem cell_append_eq {h : Heap} {c : Cell} :
    ({ h with cells := h.cells ++ [c] } : Heap).cell h.cells.length = c := by
  simp [cell, List.getD_eq_getElem?_getD]

theorem addAll_spec (c : Cell) (ts : List Nat) (h : Heap) (hn : ts.Nodup)
    (hok : ∀ t ∈ ts, t < h.trees.length ∧ h.Sorted (h.lst t) ∧ ∀ b ∈ h.lst t, b < h.cells.length ∧ h.r b ≠ c.r) :
    SameShape h (h.addAll c ts) ∧ h.cells.length ≤ (h.addAll c ts).cells.length ∧
    (∀ a < h.cells.length, (h.addAll c ts).cell a = h.cell a) ∧
    (∀ u ∉ ts, (h.addAll c ts).lst u = h.lst u) ∧
    (∀ u ∈ ts, ∃ n, h.cells.length ≤ n ∧ n < (h.addAll c ts).cells.length ∧ (h.addAll c ts).cell n = c ∧
      (h.addAll c ts).lst u = (h.lst u).filter (fun b => decide (h.r b < c.r)) ++
        n :: (h.lst u).filter (fun b => !decide (h.r b < c.r))) := by
  induction ts generalizing h with
  | nil => exact ⟨⟨fun _ => rfl, fun _ => rfl, rfl⟩, Nat.le_refl _, fun _ _ => rfl, fun _ _ => rfl, by simp⟩
  | cons t ts ih =>
    rw [List.nodup_cons] at hn
    obtain ⟨t1, t2, t3⟩ := hok t (by simp)
    let h1 : Heap := { h with cells := h.cells ++ [c] }
    let h2 := h1.setLst t (h1.addSorted (h1.lst t) h.cells.length)
    have hstep : h.addAll c (t :: ts) = h2.addAll c ts := rfl
    have hc2 : ∀ a < h.cells.length, h2.cell a = h.cell a := fun a ha => cell_append_lt ha
    have hr2 : ∀ a < h.cells.length, h2.r a = h.r a := fun a ha => by unfold r; rw [hc2 a ha]
    have hnew : h2.cell h.cells.length = c := cell_append_eq
    have hlen2 : h2.cells.length = h.cells.length + 1 := by
      show (h.cells ++ [c]).length = _
      simp
    have hl1 : ∀ u, h1.lst u = h.lst u := fun _ => rfl
    have hl2 : ∀ u, h2.lst u = if u = t ∧ t < h.trees.length then h1.addSorted (h.lst t) h.cells.length else h.lst u :=
      fun u => lst_setLst h1 t u _
    have hr1 : ∀ a < h.cells.length, h1.r a = h.r a := fun a ha => by unfold r; rw [cell_append_lt ha]
    have hr1n : h1.r h.cells.length = c.r := by unfold r; rw [cell_append_eq]
    have hadd : h1.addSorted (h.lst t) h.cells.length =
        (h.lst t).filter (fun b => decide (h.r b < c.r)) ++
          h.cells.length :: (h.lst t).filter (fun b => !decide (h.r b < c.r)) := by
      have hs1 : h1.Sorted (h.lst t) := by
        refine List.Pairwise.imp_of_mem ?_ t2
        intro a b ha hb hab
        rw [hr1 a (t3 a ha).1, hr1 b (t3 b hb).1]
        exact hab
      rw [addSorted_spec hs1 (fun b hb => by rw [hr1 b (t3 b hb).1, hr1n]; exact (t3 b hb).2)]
      congr 1
      · exact List.filter_congr fun b hb => by rw [hr1 b (t3 b hb).1, hr1n]
      · congr 1
        exact List.filter_congr fun b hb => by rw [hr1 b (t3 b hb).1, hr1n]
    have hlt2 : h2.trees.length = h.trees.length := tlen_setLst h1 t _
    obtain ⟨s, i1, i2, i3, i4⟩ := ih h2 hn.2 (by
      intro u hu
      obtain ⟨u1, u2, u3⟩ := hok u (by simp [hu])
      have hne : u ≠ t := fun e => hn.1 (e ▸ hu)
      rw [hlt2, hl2, if_neg (fun e => hne e.1)]
      refine ⟨u1, ?_, fun b hb => ⟨by rw [hlen2]; have := (u3 b hb).1; omega, by
        rw [hr2 b (u3 b hb).1]; exact (u3 b hb).2⟩⟩
      refine List.Pairwise.imp_of_mem ?_ u2
      intro a b ha hb hab
      rw [hr2 a (u3 a ha).1, hr2 b (u3 b hb).1]
      exact hab)
    rw [hstep]
    refine ⟨⟨fun u => (s.parent u).trans (parent_setLst ..), fun u => (s.root u).trans (root_setLst ..),
      s.len.trans hlt2⟩, by omega, ?_, ?_, ?_⟩
    · intro a ha
      rw [i2 a (by omega), hc2 a ha]
    · intro u hu
      have hne : u ≠ t := fun e => hu (by simp [e])
      rw [i3 u (fun e => hu (by simp [e])), hl2, if_neg (fun e => hne e.1)]
    · intro u hu
      by_cases hut : u = t
      · subst hut
        refine ⟨h.cells.length, Nat.le_refl _, by omega, ?_, ?_⟩
        · rw [i2 _ (by omega), hnew]
        · rw [i3 u hn.1, hl2, if_pos ⟨rfl, t1⟩, hadd]
      · have hu' : u ∈ ts := by simpa [hut] using hu
        obtain ⟨n, n1, n2, n3, n4⟩ := i4 u hu'
        refine ⟨n, by omega, n2, n3, ?_⟩
        obtain ⟨u1, u2, u3⟩ := hok u hu
        rw [n4, hl2, if_neg (fun e => hut e.1)]
        congr 1
        · exact List.filter_congr fun b hb => by rw [hr2 b (u3 b hb).1]
        · congr 1
          exact List.filter_congr fun b hb => by rw [hr2 b (u3 b hb).1]

/-! ### `sorted(self.indexes)` -/

theorem eraseDups_of_nodup {l : List Int} (hn : l.Nodup) : l.eraseDups = l := by
  induction l with
  | nil => rfl
  | cons a l ih =>
    rw [List.nodup_cons] at hn
    rw [List.eraseDups_cons, List.filter_eq_self.2, ih hn.2]
    intro b hb
    have : b ≠ a := fun e => hn.1 (e ▸ hb)
    simpa using this

theorem sortedIndexes_sorted {h : Heap} {t : Nat} (s : h.Sorted (h.lst t)) :
    h.sortedIndexes t = (h.lst t).map h.r := by
  have hp : ((h.lst t).map h.r).Pairwise (fun a b => a < b) := List.pairwise_map.2 s
  unfold sortedIndexes
  rw [sortBy_of_pairwise (hp.imp (fun hab => by simp; omega))]
  exact eraseDups_of_nodup (hp.imp (fun hab => by omega))

theorem sortCells_sorted {h : Heap} {l : List Nat} (s : h.Sorted l) : h.sortCells l = l := by
  unfold sortCells
  exact sortBy_of_pairwise (s.imp (fun hab => by simp; omega))

theorem pyIndex_map {α β : Type} (f : α → β) (xs : List α) (pos : Int) :
    pyIndex (xs.map f) pos = (pyIndex xs pos).map f := by
  unfold pyIndex
  rw [List.length_map]
  split
  · simp
  · split
    · simp
    · rfl

/-! ### Insertion -/

/-- `insert` through a view of a good hierarchy. `a` is the view's event at the
position; `none` stands for an empty view. -/
theorem insert_good {h : Heap} {ρ : Nat} {V : Nat → Prop} (g : Good h ρ V) {t : Nat} (ht : V t) (pos : Int)
    (ref id : Nat) {x : Int}
    (hx : (if (h.lst t).isEmpty then some 0 else (pyIndex (h.lst t) pos).map h.r) = some x) :
    ∃ h', h.insert t pos ref id = (h', .ok ()) ∧ SameShape h h' ∧ h.cells.length ≤ h'.cells.length ∧
      (∀ a < h.cells.length, (h'.cell a).ref = (h.cell a).ref ∧ (h'.cell a).id = (h.cell a).id ∧
        h'.r a = if a ∈ h.lst ρ ∧ x ≤ h.r a then h.r a + 1 else h.r a) ∧
      (∀ u ∉ t :: h.ancestors t, h'.lst u = h.lst u) ∧
      (∀ u ∈ t :: h.ancestors t, ∃ n, h.cells.length ≤ n ∧ n < h'.cells.length ∧ h'.cell n = ⟨x, ref, id⟩ ∧
        h'.lst u = (h.lst u).filter (fun b => decide (h.r b < x)) ++
          n :: (h.lst u).filter (fun b => !decide (h.r b < x))) := by
  obtain ⟨c1, c2, c3⟩ := g.chain_facts t ht
  obtain ⟨d1, d2, d3⟩ := shiftUp_spec (h.lst ρ) x h g.sortedρ.nodup g.inCells
  let h1 := h.shiftUp (h.lst ρ) x
  have htree : ∀ u, h1.tree u = h.tree u := fun u => by unfold tree; rw [d2]
  have hlst : ∀ u, h1.lst u = h.lst u := fun u => by rw [lst, htree]; rfl
  have hpar : ∀ u, h1.parent u = h.parent u := fun u => by rw [parent, htree]; rfl
  have hanc : h1.ancestors t = h.ancestors t := ancestors_congr hpar t
  have hr1 : ∀ u, V u → ∀ b ∈ h.lst u, h1.r b = if x ≤ h.r b then h.r b + 1 else h.r b := by
    intro u hu b hb
    rw [d3]
    simp only [(g.sub u hu).mem hb, true_and]
  have hlt1 : ∀ u, V u → ∀ b ∈ h.lst u, (h1.r b < x ↔ h.r b < x) := by
    intro u hu b hb
    rw [hr1 u hu b hb]
    split <;> omega
  obtain ⟨s, i1, i2, i3, i4⟩ := addAll_spec ⟨x, ref, id⟩ (t :: h.ancestors t) h1 c3 (by
    intro u hu
    obtain ⟨k1, k2, k3⟩ := c2 u hu
    rw [hlst]
    refine ⟨by rw [d2]; exact g.lt u k1, ?_, fun b hb => ⟨?_, ?_⟩⟩
    · refine List.Pairwise.imp_of_mem ?_ (g.sorted k1)
      intro a b ha hb hab
      rw [hr1 u k1 a ha, hr1 u k1 b hb]
      split <;> split <;> omega
    · rw [d1.len]; exact g.inCells b ((g.sub u k1).mem hb)
    · rw [hr1 u k1 b hb]
      show _ ≠ x
      split <;> omega)
  have hfin : h.insert t pos ref id = (h1.addAll ⟨x, ref, id⟩ (t :: h.ancestors t), .ok ()) := by
    unfold insert
    rw [sortedIndexes_sorted (g.sorted ht), pyIndex_map, hx]
    dsimp only
    rw [g.rootV t ht]
    show (h1.addAll _ (t :: h1.ancestors t), _) = _
    rw [hanc]
  refine ⟨_, hfin, ?_, ?_, ?_, ?_, ?_⟩
  · refine ⟨fun u => (s.parent u).trans (hpar u), fun u => (s.root u).trans (by rw [root, htree]; rfl), ?_⟩
    rw [s.len]; exact congrArg List.length d2
  · exact Nat.le_trans (Nat.le_of_eq d1.len.symm) i1
  · intro a ha
    have : (h1.addAll ⟨x, ref, id⟩ (t :: h.ancestors t)).cell a = h1.cell a := i2 a (by rw [d1.len]; exact ha)
    refine ⟨by rw [this]; exact d1.ref a, by rw [this]; exact d1.id a, ?_⟩
    rw [r, this]
    exact d3 a
  · intro u hu
    rw [i3 u hu, hlst]
  · intro u hu
    obtain ⟨n, n1, n2, n3, n4⟩ := i4 u hu
    obtain ⟨k1, k2, k3⟩ := c2 u hu
    refine ⟨n, by rw [← d1.len]; exact n1, n2, n3, ?_⟩
    rw [n4, hlst]
    congr 1
    · exact List.filter_congr fun b hb => by
        have := hlt1 u k1 b hb
        simp only [this]
    · congr 1
      exact List.filter_congr fun b hb => by
        have := hlt1 u k1 b hb
        simp only [this]

/-- Splitting a list with positions `0, 1, 2, ...` at position `k`. -/
theorem filter_split {h : Heap} {l : List Nat} (hi : ∀ i (hi : i < l.length), h.r l[i] = i) {k : Nat}
    (hk : k ≤ l.length) :
    l.filter (fun b => decide (h.r b < (k : Int))) = l.take k ∧
    l.filter (fun b => !decide (h.r b < (k : Int))) = l.drop k := by
  have e : l = l.take k ++ l.drop k := (List.take_append_drop k l).symm
  have h1 : ∀ b ∈ l.take k, h.r b < (k : Int) := by
    intro b hb
    obtain ⟨i, hi', rfl⟩ := List.getElem_of_mem hb
    rw [List.length_take] at hi'
    rw [List.getElem_take, hi i (by omega)]
    omega
  have h2 : ∀ b ∈ l.drop k, ¬ h.r b < (k : Int) := by
    intro b hb
    obtain ⟨i, hi', rfl⟩ := List.getElem_of_mem hb
    rw [List.length_drop] at hi'
    rw [List.getElem_drop, hi (k + i) (by omega)]
    omega
  constructor
  · conv => lhs; rw [e]
    rw [List.filter_append, List.filter_eq_self.2 (fun b hb => by simpa using h1 b hb),
      List.filter_eq_nil_iff.2 (fun b hb => by simpa using h2 b hb), List.append_nil]
  · conv => lhs; rw [e]
    rw [List.filter_append, List.filter_eq_nil_iff.2 (fun b hb => by simpa using h1 b hb),
      List.filter_eq_self.2 (fun b hb => by simpa using h2 b hb), List.nil_append]

/-- The position `pyIndex` looks at. -/
theorem pyIndex_pos {α : Type} {xs : List α} {pos : Int} {x : α} (h : pyIndex xs pos = some x) :
    ∃ k, k < xs.length ∧ xs[k]? = some x ∧ (k : Int) = if 0 ≤ pos then pos else pos + xs.length := by
  unfold pyIndex at h
  split at h
  · next hp =>
    obtain ⟨hk, hv⟩ := List.getElem?_eq_some_iff.1 h
    exact ⟨pos.toNat, hk, h, by rw [if_pos hp]; omega⟩
  · next hp =>
    split at h
    · next hq =>
      obtain ⟨hk, hv⟩ := List.getElem?_eq_some_iff.1 h
      exact ⟨_, hk, h, by rw [if_neg hp]; omega⟩
    · cases h

theorem Good.mono {h : Heap} {ρ : Nat} {V W : Nat → Prop} (g : Good h ρ V) (hρ : W ρ) (hw : ∀ t, W t → V t)
    (hc : ∀ t p, W t → h.parent t = some p → W p) : Good h ρ W := by
  refine ⟨hρ, g.parρ, fun t ht => g.rootV t (hw t ht), fun t ht => g.lt t (hw t ht), ?_, g.idx, g.inCells⟩
  intro t ht hne
  obtain ⟨p, h1, h2, h3, h4⟩ := g.up t (hw t ht) hne
  exact ⟨p, h1, h2, hc t p ht h1, h4⟩

/-- `insert` through any view keeps the topmost tree good, and with it all views that do not depend on a view that got
an `IndexedEvent` of its own. -/
theorem insert_any_good {h : Heap} {ρ : Nat} {V : Nat → Prop} (g : Good h ρ V) {t : Nat} (ht : V t) (pos : Int) (ref id : Nat)
    {k : Nat} (hkl : k ≤ (h.lst ρ).length)
    (hx : (if (h.lst t).isEmpty then some 0 else (pyIndex (h.lst t) pos).map h.r) = some (k : Int)) :
    ∃ h' n, h.insert t pos ref id = (h', .ok ()) ∧ SameShape h h' ∧ h.cells.length ≤ n ∧
      h'.cell n = ⟨k, ref, id⟩ ∧
      (∀ a < h.cells.length, (h'.cell a).ref = (h.cell a).ref ∧ (h'.cell a).id = (h.cell a).id) ∧
      (∀ u, u ∉ t :: h.ancestors t → h'.lst u = h.lst u) ∧
      h'.lst ρ = (h.lst ρ).take k ++ n :: (h.lst ρ).drop k ∧
      Good h' ρ (fun u => V u ∧ ∀ w ∈ u :: h.ancestors u, w ∈ t :: h.ancestors t → w = ρ) := by
  obtain ⟨c1, c2, c3⟩ := g.chain_facts t ht
  obtain ⟨h', e1, e2, e3, e4, e5, e6⟩ := insert_good g ht pos ref id hx
  obtain ⟨n, n1, n2, n3, n4⟩ := e6 ρ c1
  obtain ⟨f1, f2⟩ := filter_split g.idx hkl
  rw [f1, f2] at n4
  refine ⟨h', n, e1, e2, n1, n3, fun a ha => ⟨(e4 a ha).1, (e4 a ha).2.1⟩, e5, n4, ?_⟩
  have hsub : (h.lst ρ).Sublist (h'.lst ρ) := by
    rw [n4]
    conv => lhs; rw [← List.take_append_drop k (h.lst ρ)]
    exact (List.Sublist.refl _).append (List.sublist_cons_self _ _)
  refine ⟨⟨g.vρ, fun w hw _ => ?_⟩, (e2.parent ρ).trans g.parρ, fun t ht => (e2.root t).trans (g.rootV t ht.1),
    fun t ht => by rw [e2.len]; exact g.lt t ht.1, ?_, ?_, ?_⟩
  · rw [ancestors_none g.parρ] at hw
    simpa using hw
  · rintro u ⟨hu, hw⟩ hne
    obtain ⟨p, h1, h2, h3, h4⟩ := g.up u hu hne
    have hanc := ancestors_some g h3 h1 h2
    refine ⟨p, (e2.parent u).trans h1, h2, ⟨h3, fun w hm => hw w (by rw [hanc]; exact List.mem_cons_of_mem _ hm)⟩, ?_⟩
    rw [e5 u (fun hm => hne (hw u (by simp) hm))]
    by_cases hp : p = ρ
    · subst hp; exact h4.trans hsub
    · rw [e5 p (fun hm => hp (hw p (by rw [hanc]; simp) hm))]; exact h4
  · intro i hi
    have hlen : (h'.lst ρ).length = (h.lst ρ).length + 1 := by rw [n4]; simp; omega
    have hget : ∀ j (hj : j < (h.lst ρ).length), h'.r (h.lst ρ)[j] =
        if (k : Int) ≤ j then (j : Int) + 1 else j := by
      intro j hj
      have hm := List.getElem_mem hj
      rw [(e4 _ (g.inCells _ hm)).2.2, g.idx j hj]
      simp only [hm, true_and]
    have hlk : ((h.lst ρ).take k).length = k := by rw [List.length_take]; omega
    have e : (h'.lst ρ)[i]? = ((h.lst ρ).take k ++ n :: (h.lst ρ).drop k)[i]? := by rw [n4]
    rcases Nat.lt_trichotomy i k with hik | hik | hik
    · rw [List.getElem?_append_left (by omega), List.getElem?_take_of_lt hik,
        List.getElem?_eq_getElem hi, List.getElem?_eq_getElem (by omega)] at e
      injection e with e
      rw [e, hget i (by omega), if_neg (by omega)]
    · subst hik
      rw [List.getElem?_append_right (by omega), hlk, Nat.sub_self, List.getElem?_cons_zero,
        List.getElem?_eq_getElem hi] at e
      injection e with e
      rw [e, r, n3]
    · rw [List.getElem?_append_right (by omega), hlk,
        show i - k = (i - 1 - k) + 1 by omega, List.getElem?_cons_succ, List.getElem?_drop,
        show k + (i - 1 - k) = i - 1 by omega, List.getElem?_eq_getElem hi,
        List.getElem?_eq_getElem (by omega)] at e
      injection e with e
      rw [e, hget (i - 1) (by omega), if_pos (by omega)]
      omega
  · intro a ha
    rw [n4, List.mem_append, List.mem_cons] at ha
    rcases ha with ha | rfl | ha
    · have := g.inCells a (List.mem_of_mem_take ha); omega
    · exact n2
    · have := g.inCells a (List.mem_of_mem_drop ha); omega

/-- `insert` on the topmost tree keeps the hierarchy good. -/
theorem insert_root_good {h : Heap} {ρ : Nat} {V : Nat → Prop} (g : Good h ρ V) (pos : Int) (ref id : Nat)
    {k : Nat} (hk : (h.lst ρ = [] ∧ k = 0) ∨ (k < (h.lst ρ).length ∧
      (k : Int) = if 0 ≤ pos then pos else pos + (h.lst ρ).length)) :
    ∃ h' n, h.insert ρ pos ref id = (h', .ok ()) ∧ SameShape h h' ∧ h.cells.length ≤ n ∧
      h'.cell n = ⟨k, ref, id⟩ ∧
      (∀ a < h.cells.length, (h'.cell a).ref = (h.cell a).ref ∧ (h'.cell a).id = (h.cell a).id) ∧
      (∀ u, u ≠ ρ → h'.lst u = h.lst u) ∧
      h'.lst ρ = (h.lst ρ).take k ++ n :: (h.lst ρ).drop k ∧
      Good h' ρ V := by
  have hkl : k ≤ (h.lst ρ).length := by rcases hk with ⟨h1, h2⟩ | ⟨h1, _⟩ <;> omega
  have hx : (if (h.lst ρ).isEmpty then some 0 else (pyIndex (h.lst ρ) pos).map h.r) = some (k : Int) := by
    rcases hk with ⟨h1, rfl⟩ | ⟨h1, h2⟩
    · simp [h1]
    · have hne : (h.lst ρ).isEmpty = false := by
        cases hl : h.lst ρ with
        | nil => rw [hl] at h1; cases h1
        | cons => rfl
      rw [hne]
      have : pyIndex (h.lst ρ) pos = some (h.lst ρ)[k] := by
        unfold pyIndex
        by_cases hp : 0 ≤ pos
        · rw [if_pos hp] at h2 ⊢
          rw [← h2]; simp [h1]
        · rw [if_neg hp] at h2 ⊢
          rw [if_pos (by omega), ← h2]; simp [h1]
      rw [this]
      simp [g.idx k h1]
  obtain ⟨h', n, e1, e2, e3, e4, e5, e6, e7, e8⟩ := insert_any_good g g.vρ pos ref id hkl hx
  rw [ancestors_none g.parρ] at e6 e8
  refine ⟨h', n, e1, e2, e3, e4, e5, fun u hu => e6 u (by simpa using hu), e7, e8.mono g.vρ ?_ ?_⟩
  · exact fun t ht => ⟨ht, fun w _ hm => by simpa using hm⟩
  · intro t p ht hp
    rw [e2.parent] at hp
    by_cases hne : t = ρ
    · subst hne; rw [g.parρ] at hp; cases hp
    · obtain ⟨q, q1, _, q3, _⟩ := g.up t ht hne
      rw [q1] at hp; cases hp; exact q3

/-! ### View creation -/

theorem top_eq {h : Heap} {ρ : Nat} {V : Nat → Prop} (g : Good h ρ V) : ∀ t, V t →
    ((h.ancestors t).getLast?).getD t = ρ := by
  intro t
  induction t using Nat.strongRecOn with
  | ind t ih =>
    intro ht
    by_cases e : t = ρ
    · subst e; rw [ancestors_none g.parρ]; rfl
    · obtain ⟨p, h1, h2, h3, h4⟩ := g.up t ht e
      have := ih p h2 h3
      rw [ancestors_some g h3 h1 h2, List.getLast?_cons]
      simpa using this

theorem tree_newTree {h : Heap} {t : Nat} {el : List Nat} (u : Nat) :
    ((h.newTree (some t) el).1).tree u =
      if u = h.trees.length then
        ⟨some t, (if (h.lst (((h.ancestors t).getLast?).getD t)).isEmpty then h.trees.length
          else ((h.ancestors t).getLast?).getD t), h.sortCells el, []⟩
      else (h.addChild t h.trees.length).tree u := by
  have hl : (h.addChild t h.trees.length).trees.length = h.trees.length := by simp [addChild]
  show ((h.addChild t h.trees.length).trees ++ [_]).getD u default = _
  by_cases hu : u = h.trees.length
  · rw [if_pos hu, List.getD_eq_getElem?_getD, List.getElem?_append_right (by omega), hl, hu, Nat.sub_self]
    rfl
  · rw [if_neg hu, tree, List.getD_eq_getElem?_getD, List.getD_eq_getElem?_getD]
    by_cases hlt : u < h.trees.length
    · rw [List.getElem?_append_left (by omega)]
    · rw [List.getElem?_eq_none (by simp only [List.length_append, hl, List.length_singleton]; omega),
        List.getElem?_eq_none (by omega)]

theorem lst_addChild (h : Heap) (t c u : Nat) : (h.addChild t c).lst u = h.lst u := by
  rw [lst, tree_addChild]; split <;> rfl
theorem parent_addChild (h : Heap) (t c u : Nat) : (h.addChild t c).parent u = h.parent u := by
  rw [parent, tree_addChild]; split <;> rfl
theorem root_addChild (h : Heap) (t c u : Nat) : (h.addChild t c).root u = h.root u := by
  rw [root, tree_addChild]; split <;> rfl
theorem tlen_addChild (h : Heap) (t c : Nat) : (h.addChild t c).trees.length = h.trees.length := by
  simp [addChild]

theorem addChild_good {h : Heap} {ρ : Nat} {V : Nat → Prop} (g : Good h ρ V) (t c : Nat) :
    Good (h.addChild t c) ρ V := by
  refine ⟨g.vρ, by rw [parent_addChild]; exact g.parρ, fun t ht => by rw [root_addChild]; exact g.rootV t ht,
    fun t ht => by rw [tlen_addChild]; exact g.lt t ht, ?_, ?_, ?_⟩
  · intro t ht hne
    simp only [parent_addChild, lst_addChild]
    exact g.up t ht hne
  · simp only [lst_addChild]; exact g.idx
  · simp only [lst_addChild]; exact g.inCells

/-- A new view below a good hierarchy. -/
theorem newTree_good {h : Heap} {ρ : Nat} {V : Nat → Prop} (g : Good h ρ V) {t : Nat} (ht : V t)
    (hne : h.lst ρ ≠ []) {el : List Nat} (hs : (h.sortCells el).Sublist (h.lst t)) :
    let h' := (h.newTree (some t) el).1
    (h.newTree (some t) el).2 = h.trees.length ∧ h'.cells = h.cells ∧
      h'.trees.length = h.trees.length + 1 ∧ h'.lst h.trees.length = h.sortCells el ∧
      h'.parent h.trees.length = some t ∧
      (∀ u, u ≠ h.trees.length → h'.lst u = h.lst u ∧ h'.parent u = h.parent u) ∧
      Good h' ρ (fun u => V u ∨ u = h.trees.length) := by
  intro h'
  have htl := g.lt t ht
  have htree := tree_newTree (h := h) (t := t) (el := el)
  have hnew : h'.tree h.trees.length = ⟨some t, ρ, h.sortCells el, []⟩ := by
    rw [htree, if_pos rfl, top_eq g t ht]
    have : (h.lst ρ).isEmpty = false := by
      cases hl : h.lst ρ with
      | nil => exact absurd hl hne
      | cons => rfl
    rw [this]; rfl
  have hold : ∀ u, u ≠ h.trees.length → h'.tree u = (h.addChild t h.trees.length).tree u := by
    intro u hu; rw [htree, if_neg hu]
  have hlst : ∀ u, u ≠ h.trees.length → h'.lst u = h.lst u := fun u hu => by
    rw [lst, hold u hu]; exact lst_addChild ..
  have hpar : ∀ u, u ≠ h.trees.length → h'.parent u = h.parent u := fun u hu => by
    rw [parent, hold u hu]; exact parent_addChild ..
  have hroot : ∀ u, u ≠ h.trees.length → h'.root u = h.root u := fun u hu => by
    rw [root, hold u hu]; exact root_addChild ..
  have hlen : h'.trees.length = h.trees.length + 1 := by
    show ((h.addChild t h.trees.length).trees ++ [_]).length = _
    simp [addChild]
  have hvne : ∀ u, V u → u ≠ h.trees.length := fun u hu e => by have := g.lt u hu; omega
  have hl1 : h'.lst h.trees.length = h.sortCells el := by rw [lst, hnew]
  have hp1 : h'.parent h.trees.length = some t := by rw [parent, hnew]
  refine ⟨rfl, rfl, hlen, hl1, hp1, fun u hu => ⟨hlst u hu, hpar u hu⟩, ?_⟩
  have hρ := hvne ρ g.vρ
  refine ⟨.inl g.vρ, (hpar ρ hρ).trans g.parρ, ?_, ?_, ?_, ?_, ?_⟩
  · rintro u (hu | rfl)
    · rw [hroot u (hvne u hu)]; exact g.rootV u hu
    · rw [root, hnew]
  · rintro u (hu | rfl)
    · have := g.lt u hu; omega
    · omega
  · rintro u (hu | rfl) hne'
    · obtain ⟨p, h1, h2, h3, h4⟩ := g.up u hu hne'
      refine ⟨p, (hpar u (hvne u hu)).trans h1, h2, .inl h3, ?_⟩
      rw [hlst u (hvne u hu), hlst p (hvne p h3)]; exact h4
    · exact ⟨t, hp1, htl, .inl ht, by rw [hl1, hlst t (hvne t ht)]; exact hs⟩
  · simp only [hlst ρ hρ]; exact g.idx
  · simp only [hlst ρ hρ]; exact g.inCells

/-- Views from a generator. -/
theorem yieldViews_good {t : Nat} (els : List (List Nat)) {h : Heap} {ρ : Nat} {V : Nat → Prop}
    (g : Good h ρ V) (ht : V t) (hne : h.lst ρ ≠ []) (hs : ∀ el ∈ els, (h.sortCells el).Sublist (h.lst t)) :
    let h' := (h.yieldViews t els).1
    (h.yieldViews t els).2 = (List.range els.length).map (h.trees.length + ·) ∧ h'.cells = h.cells ∧
      h'.trees.length = h.trees.length + els.length ∧
      (∀ i (hi : i < els.length), h'.lst (h.trees.length + i) = h.sortCells els[i] ∧
        h'.parent (h.trees.length + i) = some t) ∧
      (∀ u, u < h.trees.length → h'.lst u = h.lst u ∧ h'.parent u = h.parent u) ∧
      Good h' ρ (fun u => V u ∨ ∃ i < els.length, u = h.trees.length + i) := by
  induction els generalizing h V with
  | nil =>
    refine ⟨rfl, rfl, rfl, (fun i hi => by cases hi), fun _ _ => ⟨rfl, rfl⟩, ?_⟩
    exact g.mono (.inl g.vρ) (fun u hu => hu.resolve_right (by rintro ⟨i, hi, _⟩; cases hi))
      (fun u p hu hp => by
        have hv := hu.resolve_right (by rintro ⟨i, hi, _⟩; cases hi)
        by_cases e : u = ρ
        · rw [e, g.parρ] at hp; cases hp
        · obtain ⟨q, h1, _, h3, _⟩ := g.up u hv e
          rw [h1] at hp; cases hp; exact .inl h3)
  | cons el els ih =>
    obtain ⟨n1, n2, n3, n4, n4', n5, n6⟩ := newTree_good g ht hne (hs el (by simp))
    have htl := g.lt t ht
    have hρl := g.lt ρ g.vρ
    generalize hh1 : (h.newTree (some t) el).1 = h1 at n2 n3 n4 n4' n5 n6
    have g2 := addChild_good n6 t h.trees.length
    have htl' : t ≠ h.trees.length := by omega
    have hρl' : ρ ≠ h.trees.length := by omega
    have hsc : ∀ el, (h1.addChild t h.trees.length).sortCells el = h.sortCells el := by
      intro el
      have hr : ∀ a, (h1.addChild t h.trees.length).r a = h.r a := fun a => by
        show (h1.cells.getD a default).r = _
        rw [n2]; rfl
      unfold sortCells
      simp only [hr]
    have i := ih (h := h1.addChild t h.trees.length) g2 (.inl ht)
      (by rw [lst_addChild, (n5 ρ hρl').1]; exact hne)
      (fun e he => by rw [hsc, lst_addChild, (n5 t htl').1]; exact hs e (by simp [he]))
    simp only [tlen_addChild, lst_addChild, parent_addChild, n3, hsc] at i
    obtain ⟨i1, i2, i3, i4, i5, i6⟩ := i
    have e1 : h.yieldViews t (el :: els) =
        (((h1.addChild t h.trees.length).yieldViews t els).1,
          h.trees.length :: ((h1.addChild t h.trees.length).yieldViews t els).2) := by
      rw [yieldViews]
      rw [← hh1, ← n1]
    rw [e1]
    dsimp only
    refine ⟨?_, i2.trans n2, by rw [i3, List.length_cons]; omega, ?_, ?_, ?_⟩
    · rw [i1, List.length_cons, List.range_succ_eq_map, List.map_cons, List.map_map, Nat.add_zero]
      congr 1
      apply List.map_congr_left
      intro a _
      simp; omega
    · intro j hj
      cases j with
      | zero =>
        obtain ⟨j1, j2⟩ := i5 h.trees.length (by omega)
        exact ⟨by rw [Nat.add_zero, j1, n4]; rfl, by rw [Nat.add_zero, j2, n4']⟩
      | succ j =>
        have := i4 j (by simpa using hj)
        rw [show h.trees.length + (j + 1) = h.trees.length + 1 + j by omega]
        simpa using this
    · intro u hu
      obtain ⟨j1, j2⟩ := i5 u (by omega)
      obtain ⟨k1, k2⟩ := n5 u (by omega)
      exact ⟨j1.trans k1, j2.trans k2⟩
    · have key : ∀ u, (V u ∨ ∃ i < (el :: els).length, u = h.trees.length + i) ↔
          ((V u ∨ u = h.trees.length) ∨ ∃ i < els.length, u = h.trees.length + 1 + i) := by
        intro u
        constructor
        · rintro (hu | ⟨i, hi, rfl⟩)
          · exact .inl (.inl hu)
          · cases i with
            | zero => exact .inl (.inr rfl)
            | succ i => exact .inr ⟨i, by simpa using hi, by omega⟩
        · rintro ((hu | rfl) | ⟨i, hi, rfl⟩)
          · exact .inl hu
          · exact .inr ⟨0, by simp, rfl⟩
          · exact .inr ⟨i + 1, by simpa using hi, by omega⟩
      have : (fun u => V u ∨ ∃ i < (el :: els).length, u = h.trees.length + i) =
          (fun u => (V u ∨ u = h.trees.length) ∨ ∃ i < els.length, u = h.trees.length + 1 + i) :=
        funext fun u => propext (key u)
      rw [this]
      exact i6

theorem ofEvents_good (evs : List (Nat × Nat)) :
    (ofEvents evs).cells = evs.zipIdx.map (fun x => ⟨x.2, x.1.1, x.1.2⟩) ∧
    (ofEvents evs).trees = [⟨none, 0, List.range evs.length, []⟩] ∧
    Good (ofEvents evs) 0 (· = 0) := by
  have hr : ∀ i < evs.length, (⟨evs.zipIdx.map (fun x => ⟨x.2, x.1.1, x.1.2⟩), []⟩ : Heap).r i = i := by
    intro i hi
    simp [r, cell, List.getD_eq_getElem?_getD, hi]
  have hs : (⟨evs.zipIdx.map (fun x => ⟨x.2, x.1.1, x.1.2⟩), []⟩ : Heap).Sorted (List.range evs.length) := by
    apply sorted_of_idx
    intro i hi
    rw [List.getElem_range]
    exact hr i (by simpa using hi)
  have ht : (ofEvents evs).trees = [⟨none, 0, List.range evs.length, []⟩] := by
    show [_] = _
    rw [sortCells_sorted hs]; rfl
  have hc : (ofEvents evs).cells = evs.zipIdx.map (fun x => ⟨x.2, x.1.1, x.1.2⟩) := rfl
  refine ⟨hc, ht, ?_⟩
  have htree : (ofEvents evs).tree 0 = ⟨none, 0, List.range evs.length, []⟩ := by
    unfold tree; rw [ht]; rfl
  have hl : (ofEvents evs).lst 0 = List.range evs.length := by unfold lst; rw [htree]
  refine ⟨rfl, by unfold parent; rw [htree], ?_, ?_, ?_, ?_, ?_⟩
  · rintro t rfl; unfold root; rw [htree]
  · rintro t rfl; rw [ht]; simp
  · rintro t rfl h; exact absurd rfl h
  · intro i hi
    simp only [hl, List.getElem_range] at hi ⊢
    exact hr i (by simpa using hi)
  · intro a ha
    rw [hl] at ha
    rw [hc]
    simpa using ha

end Heap
end PyFLP
