import Verif.Tree
/-!
# Lemmas about the event tree model
-/

namespace PyFLP

namespace Heap

/-! ### Reading after writing -/

theorem cell_setR (h : Heap) (a b : Nat) (x : Int) :
    (h.setR a x).cell b = if b = a ∧ a < h.cells.length then { h.cell b with r := x } else h.cell b := by
  simp only [cell, setR, List.getD_eq_getElem?_getD, List.getElem?_modify]
  by_cases hb : b = a
  · subst hb
    by_cases hl : b < h.cells.length
    · simp [hl]
    · simp [hl]
  · have : ¬ a = b := fun e => hb e.symm
    simp [hb, this]

theorem r_setR (h : Heap) (a b : Nat) (x : Int) :
    (h.setR a x).r b = if b = a ∧ a < h.cells.length then x else h.r b := by
  simp only [r, cell_setR]; split <;> rfl

theorem ref_setR (h : Heap) (a b : Nat) (x : Int) : ((h.setR a x).cell b).ref = (h.cell b).ref := by
  simp only [cell_setR]; split <;> rfl

theorem id_setR (h : Heap) (a b : Nat) (x : Int) : ((h.setR a x).cell b).id = (h.cell b).id := by
  simp only [cell_setR]; split <;> rfl

theorem len_setR (h : Heap) (a : Nat) (x : Int) : (h.setR a x).cells.length = h.cells.length := by
  simp [setR]

theorem tree_setLst (h : Heap) (t u : Nat) (l : List Nat) :
    (h.setLst t l).tree u = if u = t ∧ t < h.trees.length then { h.tree u with lst := l } else h.tree u := by
  simp only [tree, setLst, List.getD_eq_getElem?_getD, List.getElem?_modify]
  by_cases hb : u = t
  · subst hb
    by_cases hl : u < h.trees.length
    · simp [hl]
    · simp [hl]
  · have : ¬ t = u := fun e => hb e.symm
    simp [hb, this]

theorem lst_setLst (h : Heap) (t u : Nat) (l : List Nat) :
    (h.setLst t l).lst u = if u = t ∧ t < h.trees.length then l else h.lst u := by
  simp only [lst, tree_setLst]; split <;> rfl

theorem parent_setLst (h : Heap) (t u : Nat) (l : List Nat) : (h.setLst t l).parent u = h.parent u := by
  simp only [parent, tree_setLst]; split <;> rfl

theorem root_setLst (h : Heap) (t u : Nat) (l : List Nat) : (h.setLst t l).root u = h.root u := by
  simp only [root, tree_setLst]; split <;> rfl

theorem tlen_setLst (h : Heap) (t : Nat) (l : List Nat) :
    (h.setLst t l).trees.length = h.trees.length := by
  simp [setLst]

theorem cell_setLst (h : Heap) (t : Nat) (l : List Nat) (a : Nat) : (h.setLst t l).cell a = h.cell a := rfl

theorem tree_addChild (h : Heap) (t c u : Nat) :
    (h.addChild t c).tree u =
      if u = t ∧ t < h.trees.length then { h.tree u with children := (h.tree u).children ++ [c] }
      else h.tree u := by
  simp only [tree, addChild, List.getD_eq_getElem?_getD, List.getElem?_modify]
  by_cases hb : u = t
  · subst hb
    by_cases hl : u < h.trees.length
    · simp [hl]
    · simp [hl]
  · have : ¬ t = u := fun e => hb e.symm
    simp [hb, this]

/-! ### Shifting -/

/-- Same `IndexedEvent`s up to their positions. -/
structure SameCells (h h' : Heap) : Prop where
  len : h'.cells.length = h.cells.length
  ref : ∀ a, (h'.cell a).ref = (h.cell a).ref
  id : ∀ a, (h'.cell a).id = (h.cell a).id

theorem shiftUp_spec (l : List Nat) (x : Int) (h : Heap) (hn : l.Nodup) (hl : ∀ a ∈ l, a < h.cells.length) :
    SameCells h (h.shiftUp l x) ∧ (h.shiftUp l x).trees = h.trees ∧
    ∀ b, (h.shiftUp l x).r b = if b ∈ l ∧ x ≤ h.r b then h.r b + 1 else h.r b := by
  induction l generalizing h with
  | nil => exact ⟨⟨rfl, fun _ => rfl, fun _ => rfl⟩, rfl, fun b => by simp [shiftUp]⟩
  | cons a l ih =>
    rw [List.nodup_cons] at hn
    have ha := hl a (by simp)
    have step : h.shiftUp (a :: l) x = (if x ≤ h.r a then h.setR a (h.r a + 1) else h).shiftUp l x := rfl
    rw [step]
    by_cases hx : x ≤ h.r a
    · rw [if_pos hx]
      obtain ⟨⟨i1, i2, i3⟩, i4, i5⟩ := ih (h.setR a (h.r a + 1)) hn.2
        (fun b hb => by rw [len_setR]; exact hl b (by simp [hb]))
      refine ⟨⟨i1.trans (len_setR ..), fun b => (i2 b).trans (ref_setR ..),
        fun b => (i3 b).trans (id_setR ..)⟩, i4, fun b => ?_⟩
      rw [i5, r_setR]
      by_cases hb : b = a
      · subst hb
        simp [hn.1, ha, hx]
      · simp [hb]
    · rw [if_neg hx]
      obtain ⟨i1, i4, i5⟩ := ih h hn.2 (fun b hb => hl b (by simp [hb]))
      refine ⟨i1, i4, fun b => ?_⟩
      rw [i5]
      by_cases hb : b = a
      · subst hb
        simp [hn.1, hx]
      · simp [hb]

theorem shiftDown_spec (l : List Nat) (ie : Nat) (h : Heap) (hn : l.Nodup)
    (hl : ∀ a ∈ l, a < h.cells.length) (hie : ie ∉ l) :
    SameCells h (h.shiftDown l ie) ∧ (h.shiftDown l ie).trees = h.trees ∧
    ∀ b, (h.shiftDown l ie).r b = if b ∈ l ∧ h.r ie ≤ h.r b then h.r b - 1 else h.r b := by
  induction l generalizing h with
  | nil => exact ⟨⟨rfl, fun _ => rfl, fun _ => rfl⟩, rfl, fun b => by simp [shiftDown]⟩
  | cons a l ih =>
    rw [List.nodup_cons] at hn
    have ha := hl a (by simp)
    have hne : ie ≠ a := fun e => hie (by simp [e])
    have hie' : ie ∉ l := fun e => hie (by simp [e])
    have step : h.shiftDown (a :: l) ie =
        (if h.r ie ≤ h.r a then h.setR a (h.r a - 1) else h).shiftDown l ie := rfl
    rw [step]
    by_cases hx : h.r ie ≤ h.r a
    · rw [if_pos hx]
      obtain ⟨⟨i1, i2, i3⟩, i4, i5⟩ := ih (h.setR a (h.r a - 1)) hn.2
        (fun b hb => by rw [len_setR]; exact hl b (by simp [hb])) hie'
      refine ⟨⟨i1.trans (len_setR ..), fun b => (i2 b).trans (ref_setR ..),
        fun b => (i3 b).trans (id_setR ..)⟩, i4, fun b => ?_⟩
      have hrie : (h.setR a (h.r a - 1)).r ie = h.r ie := by rw [r_setR, if_neg (fun e => hne e.1)]
      rw [i5, hrie, r_setR]
      by_cases hb : b = a
      · subst hb
        simp [hn.1, ha, hx]
      · simp [hb]
    · rw [if_neg hx]
      obtain ⟨i1, i4, i5⟩ := ih h hn.2 (fun b hb => hl b (by simp [hb])) hie'
      refine ⟨i1, i4, fun b => ?_⟩
      rw [i5]
      by_cases hb : b = a
      · subst hb
        simp [hn.1, hx]
      · simp [hb]

/-! ### Sorted lists -/

/-- Strictly increasing positions. -/
def Sorted (h : Heap) (l : List Nat) : Prop := l.Pairwise fun a b => h.r a < h.r b

theorem Sorted.nodup {h : Heap} {l : List Nat} (s : h.Sorted l) : l.Nodup :=
  List.Pairwise.imp (fun hab e => by subst e; omega) s

theorem Sorted.sub {h : Heap} {l m : List Nat} (s : h.Sorted m) (hs : l.Sublist m) : h.Sorted l :=
  List.Pairwise.sublist hs s

theorem takeWhile_lt {h : Heap} {l : List Nat} (s : h.Sorted l) {a : Nat} (ha : a ∈ l) :
    ∃ p q, l = p ++ a :: q ∧ (l.takeWhile fun b => decide (h.r b < h.r a)) = p := by
  induction l with
  | nil => cases ha
  | cons c l ih =>
    rw [Sorted, List.pairwise_cons] at s
    by_cases hc : a = c
    · subst hc
      exact ⟨[], l, rfl, by simp⟩
    · have hal : a ∈ l := by simpa [hc] using ha
      obtain ⟨p, q, h1, h2⟩ := ih s.2 hal
      refine ⟨c :: p, q, by rw [h1]; rfl, ?_⟩
      rw [List.takeWhile_cons, if_pos (by simpa using s.1 a hal), h2]

theorem removeSorted_mem {h : Heap} {l : List Nat} (s : h.Sorted l) {a : Nat} (ha : a ∈ l) :
    h.removeSorted l a = .ok (l.filter (· ≠ a)) := by
  obtain ⟨p, q, h1, h2⟩ := takeWhile_lt s ha
  have hn := s.nodup
  unfold removeSorted
  rw [h2]
  subst h1
  simp only [List.getElem?_append_right (Nat.le_refl p.length), Nat.sub_self, List.getElem?_cons_zero]
  rw [List.nodup_append] at hn
  obtain ⟨n1, n2, n3⟩ := hn
  rw [List.nodup_cons] at n2
  rw [if_pos trivial, List.eraseIdx_append_of_length_le (Nat.le_refl _), Nat.sub_self, List.eraseIdx_cons_zero,
    List.filter_append, List.filter_cons]
  have e1 : p.filter (fun x => decide (x ≠ a)) = p :=
    List.filter_eq_self.2 fun x hx => by simpa using n3 x hx a (by simp)
  have e2 : q.filter (fun x => decide (x ≠ a)) = q :=
    List.filter_eq_self.2 fun x hx => by
      have : x ≠ a := fun e => n2.1 (e ▸ hx)
      simpa using this
  rw [e1, e2]
  simp

/-! ### Ancestors -/

theorem ancestors_none {h : Heap} {t : Nat} (hp : h.parent t = none) : h.ancestors t = [] := by
  unfold ancestors
  cases t with
  | zero => rfl
  | succ t => rw [ancestorsUpTo, hp]

theorem ancestors_congr {h h' : Heap} (hp : ∀ t, h'.parent t = h.parent t) (t : Nat) :
    h'.ancestors t = h.ancestors t := by
  have key : ∀ n t, ancestorsUpTo h' n t = ancestorsUpTo h n t := by
    intro n
    induction n with
    | zero => intro t; rfl
    | succ n ih =>
      intro t
      rw [ancestorsUpTo, ancestorsUpTo, hp]
      cases h.parent t with
      | none => rfl
      | some p => simp only [ih]
  exact key t t

/-- A hierarchy of views `V` under the topmost tree `ρ`: the views share the
`IndexedEvent`s of `ρ`, whose positions are `0, 1, 2, ...`. -/
structure Good (h : Heap) (ρ : Nat) (V : Nat → Prop) : Prop where
  vρ : V ρ
  parρ : h.parent ρ = none
  rootV : ∀ t, V t → h.root t = ρ
  lt : ∀ t, V t → t < h.trees.length
  up : ∀ t, V t → t ≠ ρ → ∃ p, h.parent t = some p ∧ p < t ∧ V p ∧ (h.lst t).Sublist (h.lst p)
  idx : ∀ i (hi : i < (h.lst ρ).length), h.r (h.lst ρ)[i] = i
  inCells : ∀ a ∈ h.lst ρ, a < h.cells.length

/-- More steps than needed make no difference. -/
theorem ancestorsUpTo_good {h : Heap} {ρ : Nat} {V : Nat → Prop} (g : Good h ρ V) :
    ∀ n m t, V t → t ≤ n → t ≤ m → ancestorsUpTo h n t = ancestorsUpTo h m t := by
  intro n
  induction n with
  | zero =>
    intro m t ht hn _
    by_cases e : t = ρ
    · subst e
      cases m with
      | zero => rfl
      | succ m => rw [ancestorsUpTo, ancestorsUpTo, g.parρ]
    · obtain ⟨p, _, hlt, _⟩ := g.up t ht e
      omega
  | succ n ih =>
    intro m t ht hn hm
    by_cases e : t = ρ
    · subst e
      cases m with
      | zero => rw [ancestorsUpTo, ancestorsUpTo, g.parρ]
      | succ m => rw [ancestorsUpTo, ancestorsUpTo, g.parρ]
    · obtain ⟨p, hp, hlt, hv, _⟩ := g.up t ht e
      cases m with
      | zero => omega
      | succ m =>
        rw [ancestorsUpTo, ancestorsUpTo, hp]
        dsimp only
        rw [ih m p hv (by omega) (by omega)]

theorem ancestors_some {h : Heap} {ρ : Nat} {V : Nat → Prop} (g : Good h ρ V) {t p : Nat} (hv : V p)
    (hp : h.parent t = some p) (hlt : p < t) : h.ancestors t = p :: h.ancestors p := by
  unfold ancestors
  cases t with
  | zero => omega
  | succ t =>
    rw [ancestorsUpTo, hp]
    dsimp only
    rw [ancestorsUpTo_good g t p p hv (by omega) (Nat.le_refl _)]

theorem sorted_of_idx {h : Heap} {l : List Nat} (hi : ∀ i (hi : i < l.length), h.r l[i] = i) :
    h.Sorted l := by
  rw [Sorted, List.pairwise_iff_getElem]
  intro i j h1 h2 hij
  rw [hi i h1, hi j h2]
  omega

namespace Good

variable {h : Heap} {ρ : Nat} {V : Nat → Prop}

theorem sub (g : Good h ρ V) : ∀ t, V t → (h.lst t).Sublist (h.lst ρ) := by
  intro t
  induction t using Nat.strongRecOn with
  | ind t ih =>
    intro ht
    by_cases e : t = ρ
    · subst e; exact List.Sublist.refl _
    · obtain ⟨p, _, hlt, hv, hs⟩ := g.up t ht e
      exact hs.trans (ih p hlt hv)

theorem sortedρ (g : Good h ρ V) : h.Sorted (h.lst ρ) := sorted_of_idx g.idx

theorem sorted (g : Good h ρ V) {t : Nat} (ht : V t) : h.Sorted (h.lst t) := g.sortedρ.sub (g.sub t ht)

theorem chain_facts (g : Good h ρ V) : ∀ t, V t →
    ρ ∈ t :: h.ancestors t ∧ (∀ u ∈ t :: h.ancestors t, V u ∧ u ≤ t ∧ (h.lst t).Sublist (h.lst u)) ∧ (t :: h.ancestors t).Nodup := by
  intro t
  induction t using Nat.strongRecOn with
  | ind t ih =>
    intro ht
    by_cases e : t = ρ
    · subst e
      rw [ancestors_none g.parρ]
      simp [ht]
    · obtain ⟨p, hp, hlt, hv, hs⟩ := g.up t ht e
      obtain ⟨i1, i2, i3⟩ := ih p hlt hv
      have hc := ancestors_some g hv hp hlt
      rw [hc]
      refine ⟨by simp [i1], ?_, ?_⟩
      · intro u hu
        rcases List.mem_cons.1 hu with rfl | hu
        · exact ⟨ht, Nat.le_refl _, List.Sublist.refl _⟩
        · obtain ⟨j1, j2, j3⟩ := i2 u hu
          exact ⟨j1, by omega, hs.trans j3⟩
      · rw [List.nodup_cons]
        refine ⟨fun hm => ?_, i3⟩
        have := (i2 t hm).2.1
        omega

end Good

/-- Only lists of trees differ. -/
structure SameShape (h h' : Heap) : Prop where
  parent : ∀ t, h'.parent t = h.parent t
  root : ∀ t, h'.root t = h.root t
  len : h'.trees.length = h.trees.length

theorem removeAll_spec (a : Nat) (ts : List Nat) (h : Heap) (hn : ts.Nodup)
    (hok : ∀ t ∈ ts, t < h.trees.length ∧ a ∈ h.lst t ∧ h.Sorted (h.lst t)) :
    ∃ h1, h.removeAll a ts = (h1, .ok ()) ∧ h1.cells = h.cells ∧ SameShape h h1 ∧
      ∀ u, h1.lst u = if u ∈ ts then (h.lst u).filter (· ≠ a) else h.lst u := by
  induction ts generalizing h with
  | nil => exact ⟨h, rfl, rfl, ⟨fun _ => rfl, fun _ => rfl, rfl⟩, fun u => by simp⟩
  | cons t ts ih =>
    rw [List.nodup_cons] at hn
    obtain ⟨h1, h2, h3⟩ := hok t (by simp)
    have hrem := removeSorted_mem h3 h2
    unfold removeAll
    rw [hrem]
    dsimp only
    obtain ⟨h', e1, e2, ⟨s1, s2, s3⟩, e4⟩ := ih (h.setLst t ((h.lst t).filter (· ≠ a))) hn.2 (by
      intro u hu
      obtain ⟨k1, k2, k3⟩ := hok u (by simp [hu])
      have hne : u ≠ t := fun e => hn.1 (e ▸ hu)
      rw [tlen_setLst, lst_setLst, if_neg (fun e => hne e.1)]
      exact ⟨k1, k2, k3⟩)
    refine ⟨h', e1, e2, ⟨fun u => (s1 u).trans (parent_setLst ..), fun u => (s2 u).trans (root_setLst ..),
      s3.trans (tlen_setLst ..)⟩, fun u => ?_⟩
    rw [e4, lst_setLst]
    by_cases hu : u = t
    · subst hu
      simp [hn.1, h1]
    · simp [hu]

theorem pyIndex_mem {α : Type} {xs : List α} {pos : Int} {x : α} (h : pyIndex xs pos = some x) : x ∈ xs := by
  unfold pyIndex at h
  split at h
  · exact List.mem_of_getElem? h
  · split at h
    · exact List.mem_of_getElem? h
    · cases h

/-- Removing the element at position `k` of a canonical list and shifting. -/
theorem filter_idx {h h' : Heap} {l : List Nat} {a : Nat} (ha : a ∈ l)
    (hi : ∀ i (hi : i < l.length), h.r l[i] = i)
    (hr : ∀ b ∈ l.filter (· ≠ a), h'.r b = if h.r a ≤ h.r b then h.r b - 1 else h.r b) :
    ∀ i (hi : i < (l.filter (· ≠ a)).length), h'.r (l.filter (· ≠ a))[i] = i := by
  have s := sorted_of_idx hi
  obtain ⟨p, q, h1, h2⟩ := takeWhile_lt s ha
  have hn := s.nodup
  have hf : l.filter (· ≠ a) = p ++ q := by
    have := removeSorted_mem s ha
    unfold removeSorted at this
    rw [h2] at this
    subst h1
    simp only [List.getElem?_append_right (Nat.le_refl p.length), Nat.sub_self, List.getElem?_cons_zero,
      List.eraseIdx_append_of_length_le (Nat.le_refl _), List.eraseIdx_cons_zero, if_true] at this
    injection this with this
    exact this.symm
  have hra : h.r a = p.length := by
    have := hi p.length (by rw [h1]; simp)
    simpa [h1] using this
  intro i hil
  rw [hr _ (List.getElem_mem _)]
  simp only [hf] at hil ⊢
  by_cases hip : i < p.length
  · have hv : h.r (p ++ q)[i] = i := by
      have := hi i (by rw [h1]; simp; omega)
      simp only [h1, List.getElem_append_left hip] at this ⊢
      exact this
    rw [hv, hra, if_neg (by omega)]
  · have hv : h.r (p ++ q)[i] = i + 1 := by
      have := hi (i + 1) (by rw [h1]; simp at hil ⊢; omega)
      simp only [h1] at this
      rw [List.getElem_append_right (by omega)] at this ⊢
      simp only [show i + 1 - p.length = (i - p.length) + 1 by omega, List.getElem_cons_succ] at this
      rw [this]; omega
    rw [hv, hra, if_pos (by omega)]
    omega

/-- `pop` on a view of a good hierarchy: which event, what is removed where, and
which part of the hierarchy stays good. -/
theorem pop_good {h : Heap} {ρ : Nat} {V : Nat → Prop} (g : Good h ρ V) {t : Nat} (ht : V t) (id : Nat)
    (pos : Int) {ie : Nat} (hie : pyIndex ((h.lst t).filter fun a => (h.cell a).id == id) pos = some ie) :
    ∃ h', h.pop t id pos = (h', .ok (h.cell ie).ref) ∧ ie ∈ h.lst t ∧ (h.cell ie).id = id ∧
      SameCells h h' ∧ SameShape h h' ∧
      (∀ u, h'.lst u = if u ∈ t :: h.ancestors t then (h.lst u).filter (· ≠ ie) else h.lst u) ∧
      Good h' ρ (fun u => V u ∧ ∀ w ∈ u :: h.ancestors u, w ∈ t :: h.ancestors t ∨ ie ∉ h.lst w) := by
  have hm := pyIndex_mem hie
  rw [List.mem_filter] at hm
  obtain ⟨hm, hid⟩ := hm
  obtain ⟨c1, c2, c3⟩ := g.chain_facts t ht
  have hany : (h.lst t).any (fun a => (h.cell a).id == id) = true := List.any_eq_true.2 ⟨ie, hm, hid⟩
  obtain ⟨h1, e1, e2, ss, e4⟩ := removeAll_spec ie (t :: h.ancestors t) h c3 (fun u hu => by
    obtain ⟨k1, k2, k3⟩ := c2 u hu
    exact ⟨g.lt u k1, k3.mem hm, g.sorted k1⟩)
  have hcell : ∀ a, h1.cell a = h.cell a := fun a => by unfold cell; rw [e2]
  have hr1 : ∀ a, h1.r a = h.r a := fun a => by unfold r; rw [hcell]
  have hroot1 : h1.root t = ρ := (ss.root t).trans (g.rootV t ht)
  have hρ : h1.lst ρ = (h.lst ρ).filter (· ≠ ie) := by rw [e4, if_pos c1]
  have hnod : (h1.lst ρ).Nodup := by rw [hρ]; exact g.sortedρ.nodup.sublist List.filter_sublist
  have hcl : ∀ a ∈ h1.lst ρ, a < h1.cells.length := fun a ha => by
    rw [hρ, List.mem_filter] at ha
    rw [e2]; exact g.inCells a ha.1
  have hnot : ie ∉ h1.lst ρ := by rw [hρ]; simp
  obtain ⟨d1, d2, d3⟩ := shiftDown_spec (h1.lst ρ) ie h1 hnod hcl hnot
  have htree : ∀ u, (h1.shiftDown (h1.lst ρ) ie).tree u = h1.tree u := fun u => by unfold tree; rw [d2]
  have hlst : ∀ u, (h1.shiftDown (h1.lst ρ) ie).lst u = h1.lst u := fun u => by rw [lst, htree]; rfl
  refine ⟨h1.shiftDown (h1.lst ρ) ie, ?_, hm, by simpa using hid, ?_, ?_, ?_, ?_⟩
  · unfold pop
    rw [if_pos hany, hie]
    dsimp only
    rw [e1]
    dsimp only
    rw [hroot1, hcell]
  · exact ⟨d1.len.trans (by rw [e2]), fun a => (d1.ref a).trans (by rw [hcell]),
      fun a => (d1.id a).trans (by rw [hcell])⟩
  · refine ⟨fun u => ?_, fun u => ?_, ?_⟩
    · rw [parent, htree]; exact ss.parent u
    · rw [root, htree]; exact ss.root u
    · rw [d2]; exact ss.len
  · intro u; rw [hlst, e4]
  · refine ⟨⟨g.vρ, by rw [ancestors_none g.parρ]; simpa using .inl (by simpa using c1)⟩,
      ?_, ?_, ?_, ?_, ?_, ?_⟩
    · rw [parent, htree]; exact (ss.parent ρ).trans g.parρ
    · intro u hu; rw [root, htree]; exact (ss.root u).trans (g.rootV u hu.1)
    · intro u hu; rw [d2, ss.len]; exact g.lt u hu.1
    · intro u hu hne
      obtain ⟨p, hp, hlt, hv, hs⟩ := g.up u hu.1 hne
      have hpar : (h1.shiftDown (h1.lst ρ) ie).parent u = some p := by
        rw [parent, htree]; exact (ss.parent u).trans hp
      have hanc := ancestors_some g hv hp hlt
      have hpw : ∀ w ∈ p :: h.ancestors p, w ∈ t :: h.ancestors t ∨ ie ∉ h.lst w := fun w hw =>
        hu.2 w (by rw [hanc]; exact List.mem_cons_of_mem _ hw)
      refine ⟨p, hpar, hlt, ⟨hv, hpw⟩, ?_⟩
      have key : ∀ w, (w ∈ t :: h.ancestors t ∨ ie ∉ h.lst w) →
          (if w ∈ t :: h.ancestors t then (h.lst w).filter (· ≠ ie) else h.lst w) =
            (h.lst w).filter (· ≠ ie) := by
        intro w hw
        by_cases hwm : w ∈ t :: h.ancestors t
        · rw [if_pos hwm]
        · rw [if_neg hwm]
          have hni : ie ∉ h.lst w := hw.resolve_left hwm
          exact (List.filter_eq_self.2 fun x hx => by
              have : x ≠ ie := fun e => hni (e ▸ hx)
              simpa using this).symm
      rw [hlst, hlst, e4, e4, key u (hu.2 u (by simp)), key p (hpw p (by simp))]
      exact hs.filter _
    · have hρ' : (h1.shiftDown (h1.lst ρ) ie).lst ρ = (h.lst ρ).filter (· ≠ ie) := by rw [hlst, hρ]
      have hmρ : ie ∈ h.lst ρ := (g.sub t ht).mem hm
      have := filter_idx (h' := h1.shiftDown (h1.lst ρ) ie) hmρ g.idx (by
        intro b hb
        rw [d3, hr1, hr1, hρ]
        simp only [hb, true_and])
      simpa only [hρ'] using this
    · intro a ha
      rw [hlst] at ha
      rw [d1.len]; exact hcl a ha

end Heap
end PyFLP
