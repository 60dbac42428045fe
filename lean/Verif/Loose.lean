import Verif.TreeSpec
/-!
# Views with position records of their own

An insertion gives every tree above its own `IndexedEvent` (`_events.py:527`), and only those of the project are shifted by
later insertions and removals.  Facts about hierarchies in which this has happened.
-/

namespace PyFLP

namespace Heap

/-- A hierarchy of views `V` under the project: all positions are right, but need not be shared. -/
structure Fair (h : Heap) (V : Nat → Prop) : Prop where
  v0 : V 0
  par0 : h.parent 0 = none
  rootV : ∀ t, V t → h.root t = 0
  lt : ∀ t, V t → t < h.trees.length
  up : ∀ t, V t → t ≠ 0 → ∃ p, h.parent t = some p ∧ p < t ∧ V p
  idx : ∀ i (hi : i < (h.lst 0).length), h.r (h.lst 0)[i] = i
  inCells : ∀ t, V t → ∀ a ∈ h.lst t, a < h.cells.length
  sorted : ∀ t, V t → h.Sorted (h.lst t)
  nested : ∀ t p, V t → h.parent t = some p → ∀ a ∈ h.lst t, ∃ b ∈ h.lst p, h.cell b = h.cell a

/-- The same trees without events. -/
def bare (h : Heap) : Heap := ⟨[], h.trees.map fun o => { o with lst := [] }⟩

theorem tree_bare (h : Heap) (t : Nat) : h.bare.tree t = { h.tree t with lst := [] } := by
  unfold tree bare
  rw [List.getD_eq_getElem?_getD, List.getD_eq_getElem?_getD, List.getElem?_map]
  cases h.trees[t]? <;> rfl

theorem parent_bare (h : Heap) (t : Nat) : h.bare.parent t = h.parent t := by unfold parent; rw [tree_bare]

theorem ancestors_bare (h : Heap) (t : Nat) : h.bare.ancestors t = h.ancestors t := ancestors_congr (parent_bare h) t

namespace Fair

variable {h : Heap} {V : Nat → Prop}

theorem goodBare (g : Fair h V) : Good h.bare 0 V := by
  have hl : ∀ t, h.bare.lst t = [] := fun t => by unfold lst; rw [tree_bare]
  refine ⟨g.v0, (parent_bare h 0).trans g.par0, fun t ht => ?_, fun t ht => ?_, fun t ht hne => ?_, fun i hi => ?_, fun a ha => ?_⟩
  · unfold root; rw [tree_bare]; exact g.rootV t ht
  · simpa [Heap.bare] using g.lt t ht
  · obtain ⟨p, h1, h2, h3⟩ := g.up t ht hne
    exact ⟨p, (parent_bare h t).trans h1, h2, h3, by rw [hl, hl]; exact List.Sublist.refl _⟩
  · rw [hl] at hi; cases hi
  · rw [hl] at ha; cases ha

theorem anc_some (g : Fair h V) {t p : Nat} (hv : V p) (hp : h.parent t = some p) (hlt : p < t) :
    h.ancestors t = p :: h.ancestors p := by
  have := ancestors_some g.goodBare hv ((parent_bare h t).trans hp) hlt
  rwa [ancestors_bare, ancestors_bare] at this

theorem chain (g : Fair h V) {t : Nat} (ht : V t) :
    0 ∈ t :: h.ancestors t ∧ (∀ u ∈ t :: h.ancestors t, V u ∧ u ≤ t) ∧ (t :: h.ancestors t).Nodup := by
  have := g.goodBare.chain_facts t ht
  rw [ancestors_bare] at this
  exact ⟨this.1, fun u hu => ⟨(this.2.1 u hu).1, (this.2.1 u hu).2.1⟩, this.2.2⟩

theorem anc0 (g : Fair h V) : h.ancestors 0 = [] := ancestors_none g.par0

/-- Every event of a view is in the trees above, at the same position. -/
theorem above (g : Fair h V) : ∀ t, V t → ∀ w ∈ t :: h.ancestors t, ∀ a ∈ h.lst t, ∃ b ∈ h.lst w, h.cell b = h.cell a := by
  intro t
  induction t using Nat.strongRecOn with
  | ind t ih =>
    intro ht w hw a ha
    by_cases e : t = 0
    · subst e
      rw [g.anc0, List.mem_singleton] at hw
      subst hw
      exact ⟨a, ha, rfl⟩
    · obtain ⟨p, hp, hlt, hv⟩ := g.up t ht e
      rw [g.anc_some hv hp hlt] at hw
      rcases List.mem_cons.1 hw with rfl | hw
      · exact ⟨a, ha, rfl⟩
      · obtain ⟨b, hb, e1⟩ := g.nested t p ht hp a ha
        obtain ⟨c, hc, e2⟩ := ih p hlt hv w hw b hb
        exact ⟨c, hc, e2.trans e1⟩

theorem in_project (g : Fair h V) {t : Nat} (ht : V t) {a : Nat} (ha : a ∈ h.lst t) : ∃ b ∈ h.lst 0, h.cell b = h.cell a :=
  g.above t ht 0 (g.chain ht).1 a ha

/-- The position of an event of a view is its index in the project. -/
theorem place (g : Fair h V) {t : Nat} (ht : V t) {a : Nat} (ha : a ∈ h.lst t) :
    ∃ (i : Nat) (b : Nat), (h.lst 0)[i]? = some b ∧ h.r a = i ∧ h.cell b = h.cell a := by
  obtain ⟨b, hb, e⟩ := g.in_project ht ha
  obtain ⟨i, hi, rfl⟩ := List.getElem_of_mem hb
  refine ⟨i, _, List.getElem?_eq_getElem hi, ?_, e⟩
  rw [r, ← e]
  exact g.idx i hi

theorem mono {W : Nat → Prop} (g : Fair h V) (h0 : W 0) (hw : ∀ t, W t → V t)
    (hc : ∀ t p, W t → h.parent t = some p → W p) : Fair h W := by
  refine ⟨h0, g.par0, fun t ht => g.rootV t (hw t ht), fun t ht => g.lt t (hw t ht), fun t ht hne => ?_, g.idx,
    fun t ht => g.inCells t (hw t ht), fun t ht => g.sorted t (hw t ht), fun t p ht => g.nested t p (hw t ht)⟩
  obtain ⟨p, h1, h2, _⟩ := g.up t (hw t ht) hne
  exact ⟨p, h1, h2, hc t p ht h1⟩

end Fair

theorem Good.fair {h : Heap} {V : Nat → Prop} (g : Good h 0 V) : Fair h V := by
  refine ⟨g.vρ, g.parρ, g.rootV, g.lt, fun t ht hne => ?_, g.idx, fun t ht a ha => g.inCells a ((g.sub t ht).mem ha),
    fun t ht => g.sorted ht, fun t p ht hp a ha => ?_⟩
  · obtain ⟨p, h1, h2, h3, _⟩ := g.up t ht hne
    exact ⟨p, h1, h2, h3⟩
  · by_cases e : t = 0
    · subst e; rw [g.parρ] at hp; cases hp
    · obtain ⟨q, h1, _, _, h4⟩ := g.up t ht e
      rw [h1] at hp; cases hp
      exact ⟨a, h4.mem ha, rfl⟩

/-! ### Views -/

theorem addChild_fair {h : Heap} {V : Nat → Prop} (g : Fair h V) (t c : Nat) : Fair (h.addChild t c) V := by
  refine ⟨g.v0, by rw [parent_addChild]; exact g.par0, fun t ht => by rw [root_addChild]; exact g.rootV t ht,
    fun t ht => by rw [tlen_addChild]; exact g.lt t ht, ?_, ?_, ?_, ?_, ?_⟩
  · intro t ht hne
    simp only [parent_addChild]
    exact g.up t ht hne
  · simp only [lst_addChild]; exact g.idx
  · simp only [lst_addChild]; exact g.inCells
  · simp only [lst_addChild]; exact g.sorted
  · simp only [lst_addChild, parent_addChild]; exact g.nested

theorem newTree_fair {h : Heap} {V : Nat → Prop} (g : Fair h V) {t : Nat} (ht : V t)
    (hne : h.lst 0 ≠ []) {el : List Nat} (hs : (h.sortCells el).Sublist (h.lst t)) :
    let h' := (h.newTree (some t) el).1
    (h.newTree (some t) el).2 = h.trees.length ∧ h'.cells = h.cells ∧
      h'.trees.length = h.trees.length + 1 ∧ h'.lst h.trees.length = h.sortCells el ∧
      h'.parent h.trees.length = some t ∧
      (∀ u, u ≠ h.trees.length → h'.lst u = h.lst u ∧ h'.parent u = h.parent u) ∧
      Fair h' (fun u => V u ∨ u = h.trees.length) := by
  intro h'
  have htl := g.lt t ht
  have htree := tree_newTree (h := h) (t := t) (el := el)
  have htop : ((h.ancestors t).getLast?).getD t = 0 := by
    have := top_eq g.goodBare t ht
    rwa [ancestors_bare] at this
  have hnew : h'.tree h.trees.length = ⟨some t, 0, h.sortCells el, []⟩ := by
    rw [htree, if_pos rfl, htop]
    have : (h.lst 0).isEmpty = false := by
      cases hl : h.lst 0 with
      | nil => exact absurd hl hne
      | cons => rfl
    rw [this]; rfl
  have hold : ∀ u, u ≠ h.trees.length → h'.tree u = (h.addChild t h.trees.length).tree u := by
    intro u hu; rw [htree, if_neg hu]
  have hlst : ∀ u, u ≠ h.trees.length → h'.lst u = h.lst u := fun u hu => by
    rw [lst, hold u hu]; exact lst_addChild ..
  have hpar : ∀ u, u ≠ h.trees.length → h'.parent u = h.parent u := fun u hu => by
    rw [parent, hold u hu]; exact parent_addChild ..
  have hroot : ∀ u, u ≠ h.trees.length → h'.root u = h.root u := fun u hu => by
    rw [root, hold u hu]; exact root_addChild ..
  have hlen : h'.trees.length = h.trees.length + 1 := by
    show ((h.addChild t h.trees.length).trees ++ [_]).length = _
    simp [addChild]
  have hvne : ∀ u, V u → u ≠ h.trees.length := fun u hu e => by have := g.lt u hu; omega
  have hl1 : h'.lst h.trees.length = h.sortCells el := by rw [lst, hnew]
  have hp1 : h'.parent h.trees.length = some t := by rw [parent, hnew]
  refine ⟨rfl, rfl, hlen, hl1, hp1, fun u hu => ⟨hlst u hu, hpar u hu⟩, ?_⟩
  have h0 := hvne 0 g.v0
  refine ⟨.inl g.v0, (hpar 0 h0).trans g.par0, ?_, ?_, ?_, ?_, ?_, ?_, ?_⟩
  · rintro u (hu | rfl)
    · rw [hroot u (hvne u hu)]; exact g.rootV u hu
    · rw [root, hnew]
  · rintro u (hu | rfl)
    · have := g.lt u hu; omega
    · omega
  · rintro u (hu | rfl) hne'
    · obtain ⟨p, h1, h2, h3⟩ := g.up u hu hne'
      exact ⟨p, (hpar u (hvne u hu)).trans h1, h2, .inl h3⟩
    · exact ⟨t, hp1, htl, .inl ht⟩
  · simp only [hlst 0 h0]; exact g.idx
  · rintro u (hu | rfl) a ha
    · rw [hlst u (hvne u hu)] at ha; exact g.inCells u hu a ha
    · rw [hl1] at ha; exact g.inCells t ht a (hs.mem ha)
  · rintro u (hu | rfl)
    · rw [hlst u (hvne u hu)]; exact g.sorted u hu
    · rw [hl1]; exact (g.sorted t ht).sub hs
  · rintro u p (hu | rfl) hp a ha
    · rw [hlst u (hvne u hu)] at ha
      rw [hpar u (hvne u hu)] at hp
      have hp' : p ≠ h.trees.length := by
        by_cases e : u = 0
        · subst e; rw [g.par0] at hp; cases hp
        · obtain ⟨q, q1, _, q3⟩ := g.up u hu e
          rw [q1] at hp; cases hp; exact hvne _ q3
      rw [hlst p hp']
      exact g.nested u p hu hp a ha
    · rw [hp1] at hp
      cases hp
      rw [hl1] at ha
      exact ⟨a, by rw [hlst t (hvne t ht)]; exact hs.mem ha, rfl⟩

theorem yieldViews_fair {t : Nat} (els : List (List Nat)) {h : Heap} {V : Nat → Prop}
    (g : Fair h V) (ht : V t) (hne : h.lst 0 ≠ []) (hs : ∀ el ∈ els, (h.sortCells el).Sublist (h.lst t)) :
    let h' := (h.yieldViews t els).1
    (h.yieldViews t els).2 = (List.range els.length).map (h.trees.length + ·) ∧ h'.cells = h.cells ∧
      h'.trees.length = h.trees.length + els.length ∧
      (∀ i (hi : i < els.length), h'.lst (h.trees.length + i) = h.sortCells els[i] ∧
        h'.parent (h.trees.length + i) = some t) ∧
      (∀ u, u < h.trees.length → h'.lst u = h.lst u ∧ h'.parent u = h.parent u) ∧
      Fair h' (fun u => V u ∨ ∃ i < els.length, u = h.trees.length + i) := by
  induction els generalizing h V with
  | nil =>
    refine ⟨rfl, rfl, rfl, (fun i hi => by cases hi), fun _ _ => ⟨rfl, rfl⟩, ?_⟩
    exact g.mono (.inl g.v0) (fun u hu => hu.resolve_right (by rintro ⟨i, hi, _⟩; cases hi))
      (fun u p hu hp => by
        have hv := hu.resolve_right (by rintro ⟨i, hi, _⟩; cases hi)
        by_cases e : u = 0
        · rw [e, g.par0] at hp; cases hp
        · obtain ⟨q, h1, _, h3⟩ := g.up u hv e
          rw [h1] at hp; cases hp; exact .inl h3)
  | cons el els ih =>
    obtain ⟨n1, n2, n3, n4, n4', n5, n6⟩ := newTree_fair g ht hne (hs el (by simp))
    have htl := g.lt t ht
    have hρl := g.lt 0 g.v0
    generalize hh1 : (h.newTree (some t) el).1 = h1 at n2 n3 n4 n4' n5 n6
    have g2 := addChild_fair n6 t h.trees.length
    have htl' : t ≠ h.trees.length := by omega
    have hρl' : 0 ≠ h.trees.length := by omega
    have hsc : ∀ el, (h1.addChild t h.trees.length).sortCells el = h.sortCells el := by
      intro el
      have hr : ∀ a, (h1.addChild t h.trees.length).r a = h.r a := fun a => by
        show (h1.cells.getD a default).r = _
        rw [n2]; rfl
      unfold sortCells
      simp only [hr]
    have i := ih (h := h1.addChild t h.trees.length) g2 (.inl ht)
      (by rw [lst_addChild, (n5 0 hρl').1]; exact hne)
      (fun e he => by rw [hsc, lst_addChild, (n5 t htl').1]; exact hs e (by simp [he]))
    simp only [tlen_addChild, lst_addChild, parent_addChild, n3, hsc] at i
    obtain ⟨i1, i2, i3, i4, i5, i6⟩ := i
    have e1 : h.yieldViews t (el :: els) =
        (((h1.addChild t h.trees.length).yieldViews t els).1,
          h.trees.length :: ((h1.addChild t h.trees.length).yieldViews t els).2) := by
      rw [yieldViews]
      rw [← hh1, ← n1]
    rw [e1]
    dsimp only
    refine ⟨?_, i2.trans n2, by rw [i3, List.length_cons]; omega, ?_, ?_, ?_⟩
    · rw [i1, List.length_cons, List.range_succ_eq_map, List.map_cons, List.map_map, Nat.add_zero]
      congr 1
      apply List.map_congr_left
      intro a _
      simp; omega
    · intro j hj
      cases j with
      | zero =>
        obtain ⟨j1, j2⟩ := i5 h.trees.length (by omega)
        exact ⟨by rw [Nat.add_zero, j1, n4]; rfl, by rw [Nat.add_zero, j2, n4']⟩
      | succ j =>
        have := i4 j (by simpa using hj)
        rw [show h.trees.length + (j + 1) = h.trees.length + 1 + j by omega]
        simpa using this
    · intro u hu
      obtain ⟨j1, j2⟩ := i5 u (by omega)
      obtain ⟨k1, k2⟩ := n5 u (by omega)
      exact ⟨j1.trans k1, j2.trans k2⟩
    · have key : ∀ u, (V u ∨ ∃ i < (el :: els).length, u = h.trees.length + i) ↔
          ((V u ∨ u = h.trees.length) ∨ ∃ i < els.length, u = h.trees.length + 1 + i) := by
        intro u
        constructor
        · rintro (hu | ⟨i, hi, rfl⟩)
          · exact .inl (.inl hu)
          · cases i with
            | zero => exact .inl (.inr rfl)
            | succ i => exact .inr ⟨i, by simpa using hi, by omega⟩
        · rintro ((hu | rfl) | ⟨i, hi, rfl⟩)
          · exact .inl hu
          · exact .inr ⟨0, by simp, rfl⟩
          · exact .inr ⟨i + 1, by simpa using hi, by omega⟩
      have : (fun u => V u ∨ ∃ i < (el :: els).length, u = h.trees.length + i) =
          (fun u => (V u ∨ u = h.trees.length) ∨ ∃ i < els.length, u = h.trees.length + 1 + i) :=
        funext fun u => propext (key u)
      rw [this]
      exact i6

/-! ### Insertion -/

/-- `SortedList.add` in a list with non-decreasing positions. -/
theorem addSorted_weak {h : Heap} {a : Nat} : ∀ {l : List Nat}, (l.Pairwise fun b c => h.r b ≤ h.r c) →
    h.addSorted l a = l.filter (fun b => decide (h.r b ≤ h.r a)) ++ a :: l.filter (fun b => !decide (h.r b ≤ h.r a)) := by
  intro l hp
  have key : ∀ l : List Nat, (l.Pairwise fun b c => h.r b ≤ h.r c) →
      (l.takeWhile fun b => decide (h.r b ≤ h.r a)) = l.filter (fun b => decide (h.r b ≤ h.r a)) ∧
      l = l.filter (fun b => decide (h.r b ≤ h.r a)) ++ l.filter (fun b => !decide (h.r b ≤ h.r a)) := by
    intro l
    induction l with
    | nil => intro _; exact ⟨rfl, rfl⟩
    | cons c l ih =>
      intro hp
      rw [List.pairwise_cons] at hp
      obtain ⟨i1, i2⟩ := ih hp.2
      by_cases hc : h.r c ≤ h.r a
      · rw [List.takeWhile_cons, if_pos (by simpa using hc), List.filter_cons, if_pos (by simpa using hc), i1,
          List.filter_cons, if_neg (by simpa using hc)]
        refine ⟨rfl, ?_⟩
        conv => lhs; rw [i2]
        rfl
      · have hnil : l.filter (fun b => decide (h.r b ≤ h.r a)) = [] := by
          rw [List.filter_eq_nil_iff]
          intro b hb
          have := hp.1 b hb
          simp; omega
        have hall : l.filter (fun b => !decide (h.r b ≤ h.r a)) = l := by
          rw [List.filter_eq_self]
          intro b hb
          have := hp.1 b hb
          simp; omega
        rw [List.takeWhile_cons, if_neg (by simpa using hc), List.filter_cons, if_neg (by simpa using hc), hnil,
          List.filter_cons, if_pos (by simpa using hc), hall]
        exact ⟨rfl, rfl⟩
  obtain ⟨k1, k2⟩ := key l hp
  unfold addSorted
  rw [k1]
  generalize l.filter (fun b => decide (h.r b ≤ h.r a)) = x at k2 ⊢
  generalize l.filter (fun b => !decide (h.r b ≤ h.r a)) = y at k2 ⊢
  subst k2
  simp

theorem addAll_weak (c : Cell) (ts : List Nat) (h : Heap) (hn : ts.Nodup)
    (hok : ∀ t ∈ ts, t < h.trees.length ∧ ((h.lst t).Pairwise fun a b => h.r a ≤ h.r b) ∧ ∀ b ∈ h.lst t, b < h.cells.length) :
    ∃ new : Nat → Nat, SameShape h (h.addAll c ts) ∧ h.cells.length ≤ (h.addAll c ts).cells.length ∧
    (∀ a < h.cells.length, (h.addAll c ts).cell a = h.cell a) ∧
    (∀ u ∉ ts, (h.addAll c ts).lst u = h.lst u) ∧
    (∀ u ∈ ts, ∀ v ∈ ts, new u = new v → u = v) ∧
    (∀ u ∈ ts, h.cells.length ≤ new u ∧ new u < (h.addAll c ts).cells.length ∧ (h.addAll c ts).cell (new u) = c ∧
      (h.addAll c ts).lst u = (h.lst u).filter (fun b => decide (h.r b ≤ c.r)) ++
        new u :: (h.lst u).filter (fun b => !decide (h.r b ≤ c.r))) := by
  induction ts generalizing h with
  | nil =>
    exact ⟨id, ⟨fun _ => rfl, fun _ => rfl, rfl⟩, Nat.le_refl _, fun _ _ => rfl, fun _ _ => rfl, by simp, by simp⟩
  | cons t ts ih =>
    rw [List.nodup_cons] at hn
    obtain ⟨t1, t2, t3⟩ := hok t (by simp)
    let h1 : Heap := { h with cells := h.cells ++ [c] }
    let h2 := h1.setLst t (h1.addSorted (h1.lst t) h.cells.length)
    have hstep : h.addAll c (t :: ts) = h2.addAll c ts := rfl
    have hc2 : ∀ a < h.cells.length, h2.cell a = h.cell a := fun a ha => cell_append_lt ha
    have hr2 : ∀ a < h.cells.length, h2.r a = h.r a := fun a ha => by unfold r; rw [hc2 a ha]
    have hnew : h2.cell h.cells.length = c := cell_append_eq
    have hlen2 : h2.cells.length = h.cells.length + 1 := by
      show (h.cells ++ [c]).length = _
      simp
    have hl2 : ∀ u, h2.lst u = if u = t ∧ t < h.trees.length then h1.addSorted (h.lst t) h.cells.length else h.lst u :=
      fun u => lst_setLst h1 t u _
    have hr1 : ∀ a < h.cells.length, h1.r a = h.r a := fun a ha => by unfold r; rw [cell_append_lt ha]
    have hr1n : h1.r h.cells.length = c.r := by unfold r; rw [cell_append_eq]
    have hadd : h1.addSorted (h.lst t) h.cells.length =
        (h.lst t).filter (fun b => decide (h.r b ≤ c.r)) ++
          h.cells.length :: (h.lst t).filter (fun b => !decide (h.r b ≤ c.r)) := by
      have hs1 : (h.lst t).Pairwise fun a b => h1.r a ≤ h1.r b := by
        refine List.Pairwise.imp_of_mem ?_ t2
        intro a b ha hb hab
        rw [hr1 a (t3 a ha), hr1 b (t3 b hb)]
        exact hab
      rw [addSorted_weak hs1]
      congr 1
      · exact List.filter_congr fun b hb => by rw [hr1 b (t3 b hb), hr1n]
      · congr 1
        exact List.filter_congr fun b hb => by rw [hr1 b (t3 b hb), hr1n]
    have hlt2 : h2.trees.length = h.trees.length := tlen_setLst h1 t _
    obtain ⟨new, s, i1, i2, i3, i4, i5⟩ := ih h2 hn.2 (by
      intro u hu
      obtain ⟨u1, u2, u3⟩ := hok u (by simp [hu])
      have hne : u ≠ t := fun e => hn.1 (e ▸ hu)
      rw [hlt2, hl2, if_neg (fun e => hne e.1)]
      refine ⟨u1, ?_, fun b hb => by rw [hlen2]; have := u3 b hb; omega⟩
      refine List.Pairwise.imp_of_mem ?_ u2
      intro a b ha hb hab
      rw [hr2 a (u3 a ha), hr2 b (u3 b hb)]
      exact hab)
    rw [hstep]
    have hne : ∀ u ∈ ts, u ≠ t := fun u hu e => hn.1 (e ▸ hu)
    refine ⟨fun u => if u = t then h.cells.length else new u, ⟨fun u => (s.parent u).trans (parent_setLst ..),
      fun u => (s.root u).trans (root_setLst ..), s.len.trans hlt2⟩, by omega, ?_, ?_, ?_, ?_⟩
    · intro a ha
      rw [i2 a (by omega), hc2 a ha]
    · intro u hu
      have hne : u ≠ t := fun e => hu (by simp [e])
      rw [i3 u (fun e => hu (by simp [e])), hl2, if_neg (fun e => hne e.1)]
    · intro u hu v hv he
      dsimp only at he
      rcases List.mem_cons.1 hu with rfl | hu' <;> rcases List.mem_cons.1 hv with rfl | hv'
      · rfl
      · rw [if_pos rfl, if_neg (hne v hv')] at he
        have := (i5 v hv').1
        omega
      · rw [if_pos rfl, if_neg (hne u hu')] at he
        have := (i5 u hu').1
        omega
      · rw [if_neg (hne u hu'), if_neg (hne v hv')] at he
        exact i4 u hu' v hv' he
    · intro u hu
      by_cases hut : u = t
      · subst hut
        dsimp only
        rw [if_pos rfl]
        refine ⟨Nat.le_refl _, by omega, ?_, ?_⟩
        · rw [i2 _ (by omega), hnew]
        · rw [i3 u hn.1, hl2, if_pos ⟨rfl, t1⟩, hadd]
      · have hu' : u ∈ ts := by simpa [hut] using hu
        obtain ⟨n1, n2, n3, n4⟩ := i5 u hu'
        dsimp only
        rw [if_neg hut]
        refine ⟨by omega, n2, n3, ?_⟩
        obtain ⟨u1, u2, u3⟩ := hok u hu
        rw [n4, hl2, if_neg (fun e => hut e.1)]
        congr 1
        · exact List.filter_congr fun b hb => by rw [hr2 b (u3 b hb)]
        · congr 1
          exact List.filter_congr fun b hb => by rw [hr2 b (u3 b hb)]

/-- `insert` through a view with right positions: the event comes behind the events of each tree above that stand before the
place in the project, and behind the one at this place if its position is not shared with the project. -/
theorem insert_fair {h : Heap} {V : Nat → Prop} (g : Fair h V) {t : Nat} (ht : V t) (pos : Int)
    (ref id : Nat) {k : Nat} (hkl : k ≤ (h.lst 0).length)
    (hx : (if (h.lst t).isEmpty then some 0 else (pyIndex (h.lst t) pos).map h.r) = some (k : Int)) :
    ∃ (h' : Heap) (new : Nat → Nat), h.insert t pos ref id = (h', .ok ()) ∧ SameShape h h' ∧ h.cells.length ≤ h'.cells.length ∧
      (∀ a < h.cells.length, (h'.cell a).ref = (h.cell a).ref ∧ (h'.cell a).id = (h.cell a).id ∧
        h'.r a = if a ∈ h.lst 0 ∧ (k : Int) ≤ h.r a then h.r a + 1 else h.r a) ∧
      (∀ u ∉ t :: h.ancestors t, h'.lst u = h.lst u) ∧
      (∀ u ∈ t :: h.ancestors t, ∀ v ∈ t :: h.ancestors t, new u = new v → u = v) ∧
      (∀ u ∈ t :: h.ancestors t, h.cells.length ≤ new u ∧ h'.cell (new u) = ⟨k, ref, id⟩ ∧
        h'.lst u = (h.lst u).filter (fun b => decide (h.r b < k ∨ (h.r b = k ∧ b ∉ h.lst 0))) ++
          new u :: (h.lst u).filter (fun b => !decide (h.r b < k ∨ (h.r b = k ∧ b ∉ h.lst 0)))) ∧
      Fair h' (fun u => V u ∧ ∀ w ∈ u :: h.ancestors u, ∀ a ∈ h.lst w, a ∉ h.lst 0 → h.r a < k) := by
  obtain ⟨c1, c2, c3⟩ := g.chain ht
  have hs0 := g.sorted 0 g.v0
  obtain ⟨d1, d2, d3⟩ := shiftUp_spec (h.lst 0) k h hs0.nodup (g.inCells 0 g.v0)
  let h1 := h.shiftUp (h.lst 0) k
  have htree : ∀ u, h1.tree u = h.tree u := fun u => by unfold tree; rw [d2]
  have hlst : ∀ u, h1.lst u = h.lst u := fun u => by rw [lst, htree]; rfl
  have hpar : ∀ u, h1.parent u = h.parent u := fun u => by rw [parent, htree]; rfl
  have hanc : h1.ancestors t = h.ancestors t := ancestors_congr hpar t
  have hle : ∀ b, (h1.r b ≤ (k : Int) ↔ (h.r b < k ∨ (h.r b = k ∧ b ∉ h.lst 0))) := by
    intro b
    show (h.shiftUp (h.lst 0) k).r b ≤ (k : Int) ↔ _
    rw [d3]
    by_cases hb : b ∈ h.lst 0
    · simp only [hb, true_and, not_true_eq_false, and_false, or_false]
      split <;> omega
    · simp only [hb, false_and, if_false, not_false_eq_true, and_true]
      omega
  obtain ⟨new, s, i1, i2, i3, i4, i5⟩ := addAll_weak ⟨k, ref, id⟩ (t :: h.ancestors t) h1 c3 (by
    intro u hu
    obtain ⟨k1, k2⟩ := c2 u hu
    rw [hlst]
    refine ⟨by rw [d2]; exact g.lt u k1, ?_, fun b hb => ?_⟩
    · refine List.Pairwise.imp_of_mem ?_ (g.sorted u k1)
      intro a b ha hb hab
      rw [d3, d3]
      split <;> split <;> omega
    · rw [d1.len]; exact g.inCells u k1 b hb)
  have hfin : h.insert t pos ref id = (h1.addAll ⟨k, ref, id⟩ (t :: h.ancestors t), .ok ()) := by
    unfold insert
    rw [sortedIndexes_sorted (g.sorted t ht), pyIndex_map, hx]
    dsimp only
    rw [g.rootV t ht]
    show (h1.addAll _ (t :: h1.ancestors t), _) = _
    rw [hanc]
  let h' := h1.addAll ⟨k, ref, id⟩ (t :: h.ancestors t)
  have hss : SameShape h h' := by
    refine ⟨fun u => (s.parent u).trans (hpar u), fun u => (s.root u).trans (by rw [root, htree]; rfl), ?_⟩
    rw [s.len]; exact congrArg List.length d2
  have hclen : h.cells.length ≤ h'.cells.length := Nat.le_trans (Nat.le_of_eq d1.len.symm) i1
  have hcells : ∀ a < h.cells.length, (h'.cell a).ref = (h.cell a).ref ∧ (h'.cell a).id = (h.cell a).id ∧
      h'.r a = if a ∈ h.lst 0 ∧ (k : Int) ≤ h.r a then h.r a + 1 else h.r a := by
    intro a ha
    have : h'.cell a = h1.cell a := i2 a (by rw [d1.len]; exact ha)
    refine ⟨by rw [this]; exact d1.ref a, by rw [this]; exact d1.id a, ?_⟩
    rw [r, this]
    exact d3 a
  have hout : ∀ u ∉ t :: h.ancestors t, h'.lst u = h.lst u := by
    intro u hu
    rw [← hlst]
    exact i3 u hu
  have hin : ∀ u ∈ t :: h.ancestors t, h.cells.length ≤ new u ∧ h'.cell (new u) = ⟨k, ref, id⟩ ∧
      h'.lst u = (h.lst u).filter (fun b => decide (h.r b < k ∨ (h.r b = k ∧ b ∉ h.lst 0))) ++
        new u :: (h.lst u).filter (fun b => !decide (h.r b < k ∨ (h.r b = k ∧ b ∉ h.lst 0))) := by
    intro u hu
    obtain ⟨n1, n2, n3, n4⟩ := i5 u hu
    refine ⟨by rw [← d1.len]; exact n1, n3, ?_⟩
    show h'.lst u = _
    rw [n4, hlst]
    congr 1
    · exact List.filter_congr fun b hb => decide_eq_decide.2 (hle b)
    · congr 1
      exact List.filter_congr fun b hb => by rw [decide_eq_decide.2 (hle b)]
  refine ⟨h', new, hfin, hss, hclen, hcells, hout, i4, hin, ?_⟩
  -- the views whose positions are still right
  have hup : ∀ u, (V u ∧ ∀ w ∈ u :: h.ancestors u, ∀ a ∈ h.lst w, a ∉ h.lst 0 → h.r a < k) →
      ∀ a ∈ h.lst u, h'.r a = if (k : Int) ≤ h.r a then h.r a + 1 else h.r a := by
    rintro u ⟨hu, hw⟩ a ha
    rw [(hcells a (g.inCells u hu a ha)).2.2]
    by_cases h0 : a ∈ h.lst 0
    · simp only [h0, true_and]
    · have := hw u (by simp) a ha h0
      rw [if_neg (fun e => h0 e.1), if_neg (by omega)]
  have hin' : ∀ u ∈ t :: h.ancestors t, (V u ∧ ∀ w ∈ u :: h.ancestors u, ∀ a ∈ h.lst w, a ∉ h.lst 0 → h.r a < k) →
      h'.lst u = (h.lst u).filter (fun b => decide (h.r b < k)) ++ new u :: (h.lst u).filter (fun b => !decide (h.r b < k)) := by
    rintro u hu ⟨hv, hw⟩
    have e : ∀ b ∈ h.lst u, decide (h.r b < k ∨ (h.r b = k ∧ b ∉ h.lst 0)) = decide (h.r b < k) := by
      intro b hb
      apply decide_eq_decide.2
      constructor
      · rintro (g1 | ⟨_, g2⟩)
        · exact g1
        · exact hw u (by simp) b hb g2
      · exact .inl
    rw [(hin u hu).2.2]
    congr 1
    · exact List.filter_congr e
    · congr 1
      exact List.filter_congr fun b hb => by rw [e b hb]
  have hnr : ∀ u ∈ t :: h.ancestors t, h'.r (new u) = k := fun u hu => by rw [r, (hin u hu).2.1]
  have hv0 : V 0 ∧ ∀ w ∈ 0 :: h.ancestors 0, ∀ a ∈ h.lst w, a ∉ h.lst 0 → h.r a < k := by
    refine ⟨g.v0, fun w hw a ha hn => ?_⟩
    rw [g.anc0, List.mem_singleton] at hw
    subst hw
    exact absurd ha hn
  refine ⟨hv0, (hss.parent 0).trans g.par0, fun u hu => (hss.root u).trans (g.rootV u hu.1),
    fun u hu => by rw [hss.len]; exact g.lt u hu.1, ?_, ?_, ?_, ?_, ?_⟩
  · rintro u ⟨hu, hw⟩ hne
    obtain ⟨p, h1, h2, h3⟩ := g.up u hu hne
    refine ⟨p, (hss.parent u).trans h1, h2, h3, fun w hm => hw w ?_⟩
    rw [g.anc_some h3 h1 h2]
    exact List.mem_cons_of_mem _ hm
  · have n4 := hin' 0 c1 hv0
    obtain ⟨f1, f2⟩ := filter_split g.idx hkl
    rw [f1, f2] at n4
    intro i hi
    have hlen : (h'.lst 0).length = (h.lst 0).length + 1 := by rw [n4]; simp; omega
    have hget : ∀ j (hj : j < (h.lst 0).length), h'.r (h.lst 0)[j] =
        if (k : Int) ≤ j then (j : Int) + 1 else j := by
      intro j hj
      rw [hup 0 hv0 _ (List.getElem_mem hj), g.idx j hj]
    have hlk : ((h.lst 0).take k).length = k := by rw [List.length_take]; omega
    have e : (h'.lst 0)[i]? = ((h.lst 0).take k ++ new 0 :: (h.lst 0).drop k)[i]? := by rw [n4]
    rcases Nat.lt_trichotomy i k with hik | hik | hik
    · rw [List.getElem?_append_left (by omega), List.getElem?_take_of_lt hik,
        List.getElem?_eq_getElem hi, List.getElem?_eq_getElem (by omega)] at e
      injection e with e
      rw [e, hget i (by omega), if_neg (by omega)]
    · subst hik
      rw [List.getElem?_append_right (by omega), hlk, Nat.sub_self, List.getElem?_cons_zero,
        List.getElem?_eq_getElem hi] at e
      injection e with e
      rw [e, hnr 0 c1]
    · rw [List.getElem?_append_right (by omega), hlk,
        show i - k = (i - 1 - k) + 1 by omega, List.getElem?_cons_succ, List.getElem?_drop,
        show k + (i - 1 - k) = i - 1 by omega, List.getElem?_eq_getElem hi,
        List.getElem?_eq_getElem (by omega)] at e
      injection e with e
      rw [e, hget (i - 1) (by omega), if_pos (by omega)]
      omega
  · rintro u hu a ha
    by_cases hm : u ∈ t :: h.ancestors t
    · rw [hin' u hm hu, List.mem_append, List.mem_cons] at ha
      rcases ha with ha | rfl | ha
      · have := g.inCells u hu.1 a (List.mem_filter.1 ha).1; omega
      · exact (i5 u hm).2.1
      · have := g.inCells u hu.1 a (List.mem_filter.1 ha).1; omega
    · rw [hout u hm] at ha
      have := g.inCells u hu.1 a ha; omega
  · intro u hu
    have hmono : (h.lst u).Pairwise fun a b => h'.r a < h'.r b := by
      refine List.Pairwise.imp_of_mem ?_ (g.sorted u hu.1)
      intro a b ha hb hab
      rw [hup u hu a ha, hup u hu b hb]
      split <;> split <;> omega
    by_cases hm : u ∈ t :: h.ancestors t
    · rw [hin' u hm hu, Sorted, List.pairwise_append, List.pairwise_cons]
      refine ⟨hmono.sublist List.filter_sublist, ⟨?_, hmono.sublist List.filter_sublist⟩, ?_⟩
      · intro b hb
        obtain ⟨b1, b2⟩ := List.mem_filter.1 hb
        rw [hnr u hm, hup u hu b b1]
        simp at b2
        rw [if_pos b2]; omega
      · intro a ha b hb
        obtain ⟨a1, a2⟩ := List.mem_filter.1 ha
        simp at a2
        have har : h'.r a = h.r a := by rw [hup u hu a a1, if_neg (by omega)]
        rcases List.mem_cons.1 hb with rfl | hb
        · rw [hnr u hm, har]; exact a2
        · obtain ⟨b1, b2⟩ := List.mem_filter.1 hb
          simp at b2
          rw [har, hup u hu b b1, if_pos b2]; omega
    · rw [hout u hm]; exact hmono
  · intro u p hu hp a ha
    rw [hss.parent] at hp
    have hne : u ≠ 0 := fun e => by rw [e, g.par0] at hp; cases hp
    obtain ⟨q, q1, q2, q3⟩ := g.up u hu.1 hne
    rw [q1] at hp; cases hp
    have hanc := g.anc_some q3 q1 q2
    have hpv : V p ∧ ∀ w ∈ p :: h.ancestors p, ∀ a ∈ h.lst w, a ∉ h.lst 0 → h.r a < k :=
      ⟨q3, fun w hm => hu.2 w (by rw [hanc]; exact List.mem_cons_of_mem _ hm)⟩
    have hcell : ∀ a ∈ h.lst u, ∀ b ∈ h.lst p, h.cell b = h.cell a → h'.cell b = h'.cell a := by
      intro a ha b hb e
      have ea := hcells a (g.inCells u hu.1 a ha)
      have eb := hcells b (g.inCells p q3 b hb)
      have er : h'.r b = h'.r a := by
        rw [hup u hu a ha, hup p hpv b hb]
        unfold r
        rw [e]
      have e1 : (h'.cell b).ref = (h'.cell a).ref := by rw [ea.1, eb.1, e]
      have e2 : (h'.cell b).id = (h'.cell a).id := by rw [ea.2.1, eb.2.1, e]
      unfold r at er
      cases hb' : h'.cell b
      cases ha' : h'.cell a
      rw [hb', ha'] at er e1 e2
      dsimp only at er e1 e2
      rw [er, e1, e2]
    have hkeep : ∀ b ∈ h.lst p, b ∈ h'.lst p := by
      intro b hb
      by_cases hm : p ∈ t :: h.ancestors t
      · rw [hin' p hm hpv, List.mem_append, List.mem_cons]
        by_cases hlt : h.r b < k
        · exact .inl (List.mem_filter.2 ⟨hb, by simpa using hlt⟩)
        · exact .inr (.inr (List.mem_filter.2 ⟨hb, by simpa using hlt⟩))
      · rw [hout p hm]; exact hb
    have hold : a ∈ h.lst u → ∃ b ∈ h'.lst p, h'.cell b = h'.cell a := by
      intro ha
      obtain ⟨b, hb, e⟩ := g.nested u p hu.1 q1 a ha
      exact ⟨b, hkeep b hb, hcell a ha b hb e⟩
    by_cases hm : u ∈ t :: h.ancestors t
    · rw [hin' u hm hu, List.mem_append, List.mem_cons] at ha
      rcases ha with ha | rfl | ha
      · exact hold (List.mem_filter.1 ha).1
      · have hpm : p ∈ t :: h.ancestors t := by
          have key : ∀ t, V t → u ∈ t :: h.ancestors t → p ∈ t :: h.ancestors t := by
            intro t
            induction t using Nat.strongRecOn with
            | ind t ih =>
              intro ht hm
              rcases List.mem_cons.1 hm with rfl | hm
              · rw [hanc]; simp
              · have hne : t ≠ 0 := fun e => by rw [e, g.anc0] at hm; cases hm
                obtain ⟨s, s1, s2, s3⟩ := g.up t ht hne
                rw [g.anc_some s3 s1 s2] at hm ⊢
                exact List.mem_cons_of_mem _ (ih s s2 s3 hm)
          exact key t ht hm
        refine ⟨new p, ?_, by rw [(hin p hpm).2.1, (hin u hm).2.1]⟩
        rw [hin' p hpm hpv]
        simp
      · exact hold (List.mem_filter.1 ha).1
    · rw [hout u hm] at ha
      exact hold ha

/-! ### Removal -/

/-- `SortedList.remove` of a position that is in the list. -/
theorem removeSorted_at {h : Heap} {l : List Nat} (s : h.Sorted l) {a b : Nat} (hb : b ∈ l) (e : h.r b = h.r a) :
    h.removeSorted l a = .ok (l.filter fun c => decide (h.r c ≠ h.r a)) := by
  have h1 : h.removeSorted l a = h.removeSorted l b := by unfold removeSorted; rw [e]
  rw [h1, removeSorted_mem s hb]
  congr 1
  apply List.filter_congr
  intro c hc
  have hinj : h.r c = h.r b → c = b := by
    intro e'
    obtain ⟨i, hi, rfl⟩ := List.getElem_of_mem hc
    obtain ⟨j, hj, rfl⟩ := List.getElem_of_mem hb
    have s' := List.pairwise_iff_getElem.1 s
    rcases Nat.lt_trichotomy i j with hij | hij | hij
    · have := s' i j hi hj hij; omega
    · subst hij; rfl
    · have := s' j i hj hi hij; omega
  apply decide_eq_decide.2
  constructor
  · intro hne he
    exact hne (hinj (he.trans e.symm))
  · intro hne he
    subst he
    exact hne e

theorem removeAll_at (a : Nat) (ts : List Nat) (h : Heap) (hn : ts.Nodup)
    (hok : ∀ t ∈ ts, t < h.trees.length ∧ (∃ b ∈ h.lst t, h.r b = h.r a) ∧ h.Sorted (h.lst t)) :
    ∃ h1, h.removeAll a ts = (h1, .ok ()) ∧ h1.cells = h.cells ∧ SameShape h h1 ∧
      ∀ u, h1.lst u = if u ∈ ts then (h.lst u).filter (fun c => decide (h.r c ≠ h.r a)) else h.lst u := by
  induction ts generalizing h with
  | nil => exact ⟨h, rfl, rfl, ⟨fun _ => rfl, fun _ => rfl, rfl⟩, fun u => by simp⟩
  | cons t ts ih =>
    rw [List.nodup_cons] at hn
    obtain ⟨h1, ⟨b, h2, h2'⟩, h3⟩ := hok t (by simp)
    have hrem := removeSorted_at h3 h2 h2'
    unfold removeAll
    rw [hrem]
    dsimp only
    obtain ⟨h', e1, e2, ⟨s1, s2, s3⟩, e4⟩ := ih (h.setLst t ((h.lst t).filter fun c => decide (h.r c ≠ h.r a))) hn.2 (by
      intro u hu
      obtain ⟨k1, k2, k3⟩ := hok u (by simp [hu])
      have hne : u ≠ t := fun e => hn.1 (e ▸ hu)
      rw [tlen_setLst, lst_setLst, if_neg (fun e => hne e.1)]
      exact ⟨k1, k2, k3⟩)
    refine ⟨h', e1, e2, ⟨fun u => (s1 u).trans (parent_setLst ..), fun u => (s2 u).trans (root_setLst ..),
      s3.trans (tlen_setLst ..)⟩, fun u => ?_⟩
    rw [e4, lst_setLst]
    by_cases hu : u = t
    · subst hu
      simp [hn.1, h1]
    · have hr : ∀ c, (h.setLst t ((h.lst t).filter fun c => decide (h.r c ≠ h.r a))).r c = h.r c := fun _ => rfl
      simp only [hr, List.mem_cons, hu, false_or, false_and, if_false]

/-- `pop` on a view with right positions. -/
theorem pop_fair {h : Heap} {V : Nat → Prop} (g : Fair h V) {t : Nat} (ht : V t) (id : Nat)
    (pos : Int) {ie : Nat} (hie : pyIndex ((h.lst t).filter fun a => (h.cell a).id == id) pos = some ie) :
    ∃ h', h.pop t id pos = (h', .ok (h.cell ie).ref) ∧ ie ∈ h.lst t ∧ (h.cell ie).id = id ∧
      SameCells h h' ∧ SameShape h h' ∧
      (∀ u, h'.lst u = if u ∈ t :: h.ancestors t then (h.lst u).filter (fun c => decide (h.r c ≠ h.r ie)) else h.lst u) ∧
      Fair h' (fun u => V u ∧ ∀ w ∈ u :: h.ancestors u, (w ∈ t :: h.ancestors t ∨ ∀ b ∈ h.lst w, h.r b ≠ h.r ie) ∧
        ∀ a ∈ h.lst w, a ∉ h.lst 0 → h.r a ≤ h.r ie) := by
  have hm := pyIndex_mem hie
  rw [List.mem_filter] at hm
  obtain ⟨hm, hid⟩ := hm
  obtain ⟨c1, c2, c3⟩ := g.chain ht
  have hany : (h.lst t).any (fun a => (h.cell a).id == id) = true := List.any_eq_true.2 ⟨ie, hm, hid⟩
  obtain ⟨h1, e1, e2, ss, e4⟩ := removeAll_at ie (t :: h.ancestors t) h c3 (fun u hu => by
    obtain ⟨b, hb, e⟩ := g.above t ht u hu ie hm
    exact ⟨g.lt u (c2 u hu).1, ⟨b, hb, by unfold r; rw [e]⟩, g.sorted u (c2 u hu).1⟩)
  have hcell : ∀ a, h1.cell a = h.cell a := fun a => by unfold cell; rw [e2]
  have hr1 : ∀ a, h1.r a = h.r a := fun a => by unfold r; rw [hcell]
  have hroot1 : h1.root t = 0 := (ss.root t).trans (g.rootV t ht)
  have h0 : h1.lst 0 = (h.lst 0).filter (fun c => decide (h.r c ≠ h.r ie)) := by rw [e4, if_pos c1]
  have hs0 := g.sorted 0 g.v0
  have hnod : (h1.lst 0).Nodup := by rw [h0]; exact hs0.nodup.sublist List.filter_sublist
  have hcl : ∀ a ∈ h1.lst 0, a < h1.cells.length := fun a ha => by
    rw [h0, List.mem_filter] at ha
    rw [e2]; exact g.inCells 0 g.v0 a ha.1
  have hnot : ie ∉ h1.lst 0 := by rw [h0]; simp
  obtain ⟨d1, d2, d3⟩ := shiftDown_spec (h1.lst 0) ie h1 hnod hcl hnot
  let h' := h1.shiftDown (h1.lst 0) ie
  have htree : ∀ u, h'.tree u = h1.tree u := fun u => by unfold tree; rw [d2]
  have hlst : ∀ u, h'.lst u = h1.lst u := fun u => by rw [lst, htree]; rfl
  have hsc : SameCells h h' := ⟨d1.len.trans (by rw [e2]), fun a => (d1.ref a).trans (by rw [hcell]),
      fun a => (d1.id a).trans (by rw [hcell])⟩
  have hss : SameShape h h' := by
    refine ⟨fun u => ?_, fun u => ?_, ?_⟩
    · rw [parent, htree]; exact ss.parent u
    · rw [root, htree]; exact ss.root u
    · rw [d2]; exact ss.len
  have hl' : ∀ u, h'.lst u = if u ∈ t :: h.ancestors t then (h.lst u).filter (fun c => decide (h.r c ≠ h.r ie)) else h.lst u :=
    fun u => by rw [hlst, e4]
  refine ⟨h', ?_, hm, by simpa using hid, hsc, hss, hl', ?_⟩
  · unfold pop
    rw [if_pos hany, hie]
    dsimp only
    rw [e1]
    dsimp only
    rw [hroot1, hcell]
  have hr' : ∀ b, h'.r b = if b ∈ (h.lst 0).filter (fun c => decide (h.r c ≠ h.r ie)) ∧ h.r ie ≤ h.r b then h.r b - 1 else h.r b := by
    intro b
    show (h1.shiftDown (h1.lst 0) ie).r b = _
    rw [d3, hr1, hr1, h0]
  let W : Nat → Prop := fun u => V u ∧ ∀ w ∈ u :: h.ancestors u,
    (w ∈ t :: h.ancestors t ∨ ∀ b ∈ h.lst w, h.r b ≠ h.r ie) ∧ ∀ a ∈ h.lst w, a ∉ h.lst 0 → h.r a ≤ h.r ie
  have hkey : ∀ u, W u → h'.lst u = (h.lst u).filter (fun c => decide (h.r c ≠ h.r ie)) := by
    intro u hu
    rw [hl']
    by_cases hwm : u ∈ t :: h.ancestors t
    · rw [if_pos hwm]
    · rw [if_neg hwm]
      exact (List.filter_eq_self.2 fun x hx => by
        simpa using ((hu.2 u (by simp)).1.resolve_left hwm) x hx).symm
  have hdown : ∀ u, W u → ∀ b ∈ h'.lst u, h'.r b = if h.r ie < h.r b then h.r b - 1 else h.r b := by
    intro u hu b hb
    rw [hkey u hu] at hb
    obtain ⟨b1, b2⟩ := List.mem_filter.1 hb
    have b3 : h.r b ≠ h.r ie := by simpa using b2
    rw [hr']
    by_cases hb0 : b ∈ h.lst 0
    · have : b ∈ (h.lst 0).filter (fun c => decide (h.r c ≠ h.r ie)) := List.mem_filter.2 ⟨hb0, b2⟩
      simp only [this, true_and]
      split <;> split <;> omega
    · have hle := (hu.2 u (by simp)).2 b b1 hb0
      rw [if_neg (fun e => hb0 (List.mem_filter.1 e.1).1), if_neg (by omega)]
  have hw0 : W 0 := by
    refine ⟨g.v0, fun w hw => ?_⟩
    rw [g.anc0, List.mem_singleton] at hw
    subst hw
    exact ⟨.inl c1, fun a ha hn => absurd ha hn⟩
  refine ⟨hw0, (hss.parent 0).trans g.par0, fun u hu => (hss.root u).trans (g.rootV u hu.1),
    fun u hu => by rw [hss.len]; exact g.lt u hu.1, ?_, ?_, ?_, ?_, ?_⟩
  · rintro u ⟨hu, hw⟩ hne
    obtain ⟨p, p1, p2, p3⟩ := g.up u hu hne
    refine ⟨p, (hss.parent u).trans p1, p2, p3, fun w hm => hw w ?_⟩
    rw [g.anc_some p3 p1 p2]
    exact List.mem_cons_of_mem _ hm
  · obtain ⟨b, hb, e⟩ := g.in_project ht hm
    have hrb : h.r b = h.r ie := by unfold r; rw [e]
    have hf : (h.lst 0).filter (fun c => decide (h.r c ≠ h.r ie)) = (h.lst 0).filter (· ≠ b) := by
      have q1 := removeSorted_at hs0 hb (a := b) rfl
      rw [removeSorted_mem hs0 hb] at q1
      injection q1 with q1
      rw [q1, hrb]
    have := filter_idx (h' := h') hb g.idx (by
      intro c hc
      rw [← hf, ← hkey 0 hw0] at hc
      rw [hdown 0 hw0 c hc, hrb]
      rw [hkey 0 hw0] at hc
      have : h.r c ≠ h.r ie := by simpa using (List.mem_filter.1 hc).2
      split <;> split <;> omega)
    rw [← hf, ← hkey 0 hw0] at this
    exact this
  · intro u hu a ha
    rw [hkey u hu] at ha
    rw [hsc.len]
    exact g.inCells u hu.1 a (List.mem_filter.1 ha).1
  · intro u hu
    have hmono : (h'.lst u).Pairwise fun a b => h.r a < h.r b := by
      rw [hkey u hu]
      exact List.Pairwise.sublist List.filter_sublist (g.sorted u hu.1)
    refine List.Pairwise.imp_of_mem ?_ hmono
    intro a b ha hb hab
    rw [hdown u hu a ha, hdown u hu b hb]
    rw [hkey u hu] at ha hb
    have a3 : h.r a ≠ h.r ie := by simpa using (List.mem_filter.1 ha).2
    have b3 : h.r b ≠ h.r ie := by simpa using (List.mem_filter.1 hb).2
    split <;> split <;> omega
  · intro u p hu hp a ha
    rw [hss.parent] at hp
    have hne : u ≠ 0 := fun e => by rw [e, g.par0] at hp; cases hp
    obtain ⟨q, q1, q2, q3⟩ := g.up u hu.1 hne
    rw [q1] at hp; cases hp
    have hpv : W p := ⟨q3, fun w hm => hu.2 w (by rw [g.anc_some q3 q1 q2]; exact List.mem_cons_of_mem _ hm)⟩
    have ha' := ha
    rw [hkey u hu] at ha
    obtain ⟨a1, a2⟩ := List.mem_filter.1 ha
    obtain ⟨b, hb, e⟩ := g.nested u p hu.1 q1 a a1
    have hrb : h.r b = h.r a := by unfold r; rw [e]
    have hb' : b ∈ h'.lst p := by
      rw [hkey p hpv]
      refine List.mem_filter.2 ⟨hb, ?_⟩
      rw [hrb]; exact a2
    refine ⟨b, hb', ?_⟩
    have er : h'.r b = h'.r a := by rw [hdown p hpv b hb', hdown u hu a ha', hrb]
    have e3 : (h'.cell b).ref = (h'.cell a).ref := by rw [hsc.ref, hsc.ref, e]
    have e5 : (h'.cell b).id = (h'.cell a).id := by rw [hsc.id, hsc.id, e]
    unfold r at er
    cases hb' : h'.cell b
    cases ha' : h'.cell a
    rw [hb', ha'] at er e3 e5
    dsimp only at er e3 e5
    rw [er, e3, e5]

end Heap

end PyFLP
