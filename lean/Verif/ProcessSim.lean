import Verif.ProcessLemmas
/-!
# Several projects in one process: a project by itself and among others
-/

namespace PyFLP

namespace Heap

/-- The memory `q` within the memory `h`: the trees and cells of `q` have the numbers `f` and `g` there. -/
structure HSim (h q : Heap) (f g : Nat → Nat) : Prop where
  tlt : ∀ t, t < q.trees.length → f t < h.trees.length
  tinj : ∀ t, t < q.trees.length → ∀ u, u < q.trees.length → f t = f u → t = u
  clt : ∀ a, a < q.cells.length → g a < h.cells.length
  cinj : ∀ a, a < q.cells.length → ∀ b, b < q.cells.length → g a = g b → a = b
  parent : ∀ t, t < q.trees.length → h.parent (f t) = (q.parent t).map f
  root : ∀ t, t < q.trees.length → h.root (f t) = f (q.root t)
  lst : ∀ t, t < q.trees.length → h.lst (f t) = (q.lst t).map g
  cell : ∀ a, a < q.cells.length → h.cell (g a) = q.cell a

/-- Both memories have changed, and the one is still within the other. -/
structure Ext (h q : Heap) (f g : Nat → Nat) (h' q' : Heap) (f' g' : Nat → Nat) : Prop where
  sim : HSim h' q' f' g'
  tlen : q.trees.length ≤ q'.trees.length ∧ h.trees.length ≤ h'.trees.length
  clen : q.cells.length ≤ q'.cells.length ∧ h.cells.length ≤ h'.cells.length
  told : ∀ t, t < q.trees.length → f' t = f t
  cold : ∀ a, a < q.cells.length → g' a = g a
  tnew : ∀ t, q.trees.length ≤ t → t < q'.trees.length → h.trees.length ≤ f' t
  cnew : ∀ a, q.cells.length ≤ a → a < q'.cells.length → h.cells.length ≤ g' a

variable {h q : Heap} {f g : Nat → Nat}

theorem Ext.refl (s : HSim h q f g) : Ext h q f g h q f g :=
  ⟨s, ⟨Nat.le_refl _, Nat.le_refl _⟩, ⟨Nat.le_refl _, Nat.le_refl _⟩, fun _ _ => rfl, fun _ _ => rfl,
    fun _ h1 h2 => by omega, fun _ h1 h2 => by omega⟩

theorem Ext.trans {h' q' h'' q'' : Heap} {f' g' f'' g'' : Nat → Nat} (e : Ext h q f g h' q' f' g')
    (d : Ext h' q' f' g' h'' q'' f'' g'') : Ext h q f g h'' q'' f'' g'' where
  sim := d.sim
  tlen := ⟨Nat.le_trans e.tlen.1 d.tlen.1, Nat.le_trans e.tlen.2 d.tlen.2⟩
  clen := ⟨Nat.le_trans e.clen.1 d.clen.1, Nat.le_trans e.clen.2 d.clen.2⟩
  told t ht := by rw [d.told t (Nat.lt_of_lt_of_le ht e.tlen.1), e.told t ht]
  cold a ha := by rw [d.cold a (Nat.lt_of_lt_of_le ha e.clen.1), e.cold a ha]
  tnew t h1 h2 := by
    by_cases ht : t < q'.trees.length
    · rw [d.told t ht]; exact e.tnew t h1 ht
    · exact Nat.le_trans e.tlen.2 (d.tnew t (by omega) h2)
  cnew a h1 h2 := by
    by_cases ha : a < q'.cells.length
    · rw [d.cold a ha]; exact e.cnew a h1 ha
    · exact Nat.le_trans e.clen.2 (d.cnew a (by omega) h2)

theorem HSim.r (s : HSim h q f g) {a : Nat} (ha : a < q.cells.length) : h.r (g a) = q.r a := by
  unfold Heap.r; rw [s.cell a ha]

theorem ext_setR (s : HSim h q f g) {a : Nat} (ha : a < q.cells.length) (x : Int) :
    Ext h q f g (h.setR (g a) x) (q.setR a x) f g where
  sim := ⟨s.tlt, s.tinj, fun b hb => by rw [len_setR] at hb ⊢; exact s.clt b hb,
    fun b hb c hc => by rw [len_setR] at hb hc; exact s.cinj b hb c hc, s.parent, s.root, s.lst, fun b hb => by
      rw [len_setR] at hb
      rw [cell_setR, cell_setR]
      by_cases e : b = a
      · subst e
        rw [if_pos ⟨rfl, s.clt b hb⟩, if_pos ⟨rfl, hb⟩, s.cell b hb]
      · rw [if_neg (fun c => e (s.cinj b hb a ha c.1)), if_neg (fun c => e c.1), s.cell b hb]⟩
  tlen := ⟨Nat.le_refl _, Nat.le_refl _⟩
  clen := by rw [len_setR, len_setR]; exact ⟨Nat.le_refl _, Nat.le_refl _⟩
  told _ _ := rfl
  cold _ _ := rfl
  tnew t h1 h2 := by have : t < q.trees.length := h2; omega
  cnew a h1 h2 := by rw [len_setR] at h2; omega

theorem ext_setLst (s : HSim h q f g) {t : Nat} (ht : t < q.trees.length) (l : List Nat) :
    Ext h q f g (h.setLst (f t) (l.map g)) (q.setLst t l) f g where
  sim := ⟨fun u hu => by rw [tlen_setLst] at hu ⊢; exact s.tlt u hu,
    fun u hu v hv => by rw [tlen_setLst] at hu hv; exact s.tinj u hu v hv, s.clt, s.cinj,
    fun u hu => by rw [tlen_setLst] at hu; rw [parent_setLst, parent_setLst]; exact s.parent u hu,
    fun u hu => by rw [tlen_setLst] at hu; rw [root_setLst, root_setLst]; exact s.root u hu,
    fun u hu => by
      rw [tlen_setLst] at hu
      rw [lst_setLst, lst_setLst]
      by_cases e : u = t
      · subst e
        rw [if_pos ⟨rfl, s.tlt u hu⟩, if_pos ⟨rfl, hu⟩]
      · rw [if_neg (fun c => e (s.tinj u hu t ht c.1)), if_neg (fun c => e c.1)]
        exact s.lst u hu, s.cell⟩
  tlen := by rw [tlen_setLst, tlen_setLst]; exact ⟨Nat.le_refl _, Nat.le_refl _⟩
  clen := ⟨Nat.le_refl _, Nat.le_refl _⟩
  told _ _ := rfl
  cold _ _ := rfl
  tnew t h1 h2 := by rw [tlen_setLst] at h2; omega
  cnew a h1 h2 := by have : a < q.cells.length := h2; omega

theorem ext_addChild (s : HSim h q f g) (t t' c c' : Nat) : Ext h q f g (h.addChild t c) (q.addChild t' c') f g where
  sim := ⟨fun u hu => by rw [tlen_addChild] at hu ⊢; exact s.tlt u hu,
    fun u hu v hv => by rw [tlen_addChild] at hu hv; exact s.tinj u hu v hv, s.clt, s.cinj,
    fun u hu => by rw [tlen_addChild] at hu; rw [parent_addChild, parent_addChild]; exact s.parent u hu,
    fun u hu => by rw [tlen_addChild] at hu; rw [root_addChild, root_addChild]; exact s.root u hu,
    fun u hu => by rw [tlen_addChild] at hu; rw [lst_addChild, lst_addChild]; exact s.lst u hu, s.cell⟩
  tlen := by rw [tlen_addChild, tlen_addChild]; exact ⟨Nat.le_refl _, Nat.le_refl _⟩
  clen := ⟨Nat.le_refl _, Nat.le_refl _⟩
  told _ _ := rfl
  cold _ _ := rfl
  tnew t h1 h2 := by rw [tlen_addChild] at h2; omega
  cnew a h1 h2 := by have : a < q.cells.length := h2; omega

/-- Numbers of objects made in both memories. -/
def renumber (n m : Nat) (f : Nat → Nat) : Nat → Nat := fun t => if t < n then f t else m + (t - n)

theorem renumber_old {n m t : Nat} {f : Nat → Nat} (h : t < n) : renumber n m f t = f t := if_pos h

theorem renumber_new {n m t : Nat} {f : Nat → Nat} (h : ¬ t < n) : renumber n m f t = m + (t - n) := if_neg h

theorem cell_append_new (h : Heap) (cs : List Cell) (i : Nat) :
    ({ h with cells := h.cells ++ cs } : Heap).cell (h.cells.length + i) = cs.getD i default := by
  simp only [cell, List.getD_eq_getElem?_getD]
  rw [List.getElem?_append_right (by omega), Nat.add_sub_cancel_left]

theorem map_renumber {l : List Nat} {n m : Nat} {g : Nat → Nat} (h : ∀ a ∈ l, a < n) : l.map (renumber n m g) = l.map g :=
  List.map_congr_left fun a ha => renumber_old (h a ha)

section
variable {own : Nat → Nat} {j : Nat} {lt lc lu ld : Nat → Nat}

theorem ext_cells (s : HSim h q f g) (w : HSep own q lu ld) (cs : List Cell) :
    Ext h q f g { h with cells := h.cells ++ cs } { q with cells := q.cells ++ cs } f (renumber q.cells.length h.cells.length g) where
  sim := by
    refine ⟨s.tlt, s.tinj, fun a ha => ?_, fun a ha b hb e => ?_, s.parent, s.root, fun t ht => ?_, fun a ha => ?_⟩
    · simp only [List.length_append] at ha ⊢
      by_cases h1 : a < q.cells.length
      · rw [renumber_old h1]; have := s.clt a h1; omega
      · rw [renumber_new h1]; omega
    · simp only [List.length_append] at ha hb
      by_cases h1 : a < q.cells.length
      · have := s.clt a h1
        by_cases h2 : b < q.cells.length
        · rw [renumber_old h1, renumber_old h2] at e; exact s.cinj a h1 b h2 e
        · rw [renumber_old h1, renumber_new h2] at e; omega
      · by_cases h2 : b < q.cells.length
        · have := s.clt b h2
          rw [renumber_new h1, renumber_old h2] at e; omega
        · rw [renumber_new h1, renumber_new h2] at e; omega
    · show h.lst (f t) = (q.lst t).map _
      rw [map_renumber fun a ha => (w.lst t ht a ha).1]
      exact s.lst t ht
    · by_cases h1 : a < q.cells.length
      · rw [renumber_old h1, cell_append _ _ h1, cell_append _ _ (s.clt a h1)]
        exact s.cell a h1
      · rw [renumber_new h1, cell_append_new]
        have : a = q.cells.length + (a - q.cells.length) := by omega
        rw [this, cell_append_new, Nat.add_sub_cancel_left]
  tlen := ⟨Nat.le_refl _, Nat.le_refl _⟩
  clen := by simp
  told _ _ := rfl
  cold a ha := renumber_old ha
  tnew t h1 h2 := by have : t < q.trees.length := h2; omega
  cnew a h1 h2 := by rw [renumber_new (by omega)]; omega

theorem ext_tree (s : HSim h q f g) (w : HSep own q lu ld) (o o' : Tree)
    (hp : o.parent = o'.parent.map f) (hp' : ∀ p, o'.parent = some p → p < q.trees.length)
    (hr : (o.root = h.trees.length ∧ o'.root = q.trees.length) ∨ (o.root = f o'.root ∧ o'.root < q.trees.length))
    (hl : o.lst = o'.lst.map g) :
    Ext h q f g { h with trees := h.trees ++ [o] } { q with trees := q.trees ++ [o'] }
      (renumber q.trees.length h.trees.length f) g where
  sim := by
    have key : ∀ t, t < (q.trees ++ [o']).length → ¬ t < q.trees.length → t = q.trees.length := by
      intro t h1 h2
      simp only [List.length_append, List.length_cons, List.length_nil] at h1
      omega
    have new : renumber q.trees.length h.trees.length f q.trees.length = h.trees.length := by rw [renumber_new (by omega)]; omega
    refine ⟨fun t ht => ?_, fun t ht u hu e => ?_, s.clt, s.cinj, fun t ht => ?_, fun t ht => ?_, fun t ht => ?_, s.cell⟩
    · by_cases h1 : t < q.trees.length
      · rw [renumber_old h1]; have := s.tlt t h1; simp; omega
      · rw [key t ht h1, new]; simp
    · by_cases h1 : t < q.trees.length
      · have := s.tlt t h1
        by_cases h2 : u < q.trees.length
        · rw [renumber_old h1, renumber_old h2] at e; exact s.tinj t h1 u h2 e
        · rw [renumber_old h1, renumber_new h2] at e; omega
      · by_cases h2 : u < q.trees.length
        · have := s.tlt u h2
          rw [renumber_new h1, renumber_old h2] at e; omega
        · rw [key t ht h1, key u hu h2]
    · unfold parent
      by_cases h1 : t < q.trees.length
      · have := s.tlt t h1
        have e1 := s.parent t h1
        unfold parent at e1
        rw [renumber_old h1, tree_append, tree_append, if_neg (by omega), if_neg (by omega), e1]
        cases hq : (q.tree t).parent with
        | none => rfl
        | some p =>
          have := (w.parent t h1 p hq).1
          simp only [Option.map_some]
          rw [renumber_old (by omega)]
      · rw [key t ht h1, new, tree_append, tree_append, if_pos rfl, if_pos rfl, hp]
        cases hq : o'.parent with
        | none => rfl
        | some p =>
          simp only [Option.map_some]
          rw [renumber_old (hp' p hq)]
    · unfold root
      by_cases h1 : t < q.trees.length
      · have := s.tlt t h1
        have e1 := s.root t h1
        have e2 := (w.root t h1).1
        unfold root at e1 e2
        rw [renumber_old h1, tree_append, tree_append, if_neg (by omega), if_neg (by omega), e1, renumber_old e2]
      · rw [key t ht h1, new, tree_append, tree_append, if_pos rfl, if_pos rfl]
        rcases hr with ⟨h2, h3⟩ | ⟨h2, h3⟩
        · rw [h2, h3, new]
        · rw [h2, renumber_old h3]
    · unfold lst
      by_cases h1 : t < q.trees.length
      · have := s.tlt t h1
        rw [renumber_old h1, tree_append, tree_append, if_neg (by omega), if_neg (by omega)]
        exact s.lst t h1
      · rw [key t ht h1, new, tree_append, tree_append, if_pos rfl, if_pos rfl, hl]
  tlen := by simp
  clen := ⟨Nat.le_refl _, Nat.le_refl _⟩
  told _ ht := renumber_old ht
  cold _ _ := rfl
  tnew t h1 h2 := by rw [renumber_new (by omega)]; omega
  cnew a h1 h2 := by have : a < q.cells.length := h2; omega

/-! ### Reading -/

theorem sim_ancestors (s : HSim h q f g) (wh : HSep own h lt lc) (wq : HSep own q lu ld) : ∀ n m t, t < q.trees.length →
    f t ≤ n → t ≤ m → ancestorsUpTo h n (f t) = (ancestorsUpTo q m t).map f := by
  have top : ∀ n t, h.parent t = none → ancestorsUpTo h n t = [] := by
    intro n t hp
    cases n with
    | zero => rfl
    | succ n => rw [ancestorsUpTo, hp]
  have top' : ∀ n t, q.parent t = none → ancestorsUpTo q n t = [] := by
    intro n t hp
    cases n with
    | zero => rfl
    | succ n => rw [ancestorsUpTo, hp]
  intro n
  induction n with
  | zero =>
    intro m t ht h1 _
    have hp : h.parent (f t) = none := by
      cases hc : h.parent (f t) with
      | none => rfl
      | some p => have := (wh.parent (f t) (s.tlt t ht) p hc).1; omega
    have hq : q.parent t = none := by
      rw [s.parent t ht] at hp
      cases hc : q.parent t with
      | none => rfl
      | some p => rw [hc] at hp; cases hp
    rw [top' m t hq]; rfl
  | succ n ih =>
    intro m t ht h1 h2
    cases hq : q.parent t with
    | none =>
      rw [top' m t hq, top (n + 1) (f t) (by rw [s.parent t ht, hq]; rfl)]
      rfl
    | some p =>
      have hlt := (wq.parent t ht p hq).1
      have hh : h.parent (f t) = some (f p) := by rw [s.parent t ht, hq]; rfl
      have hlt' := (wh.parent (f t) (s.tlt t ht) _ hh).1
      obtain ⟨m', rfl⟩ : ∃ m', m = m' + 1 := ⟨m - 1, by omega⟩
      rw [ancestorsUpTo, ancestorsUpTo, hh, hq]
      dsimp only
      rw [ih m' p (by omega) (by omega) (by omega)]
      rfl

theorem ancestors_sim (s : HSim h q f g) (wh : HSep own h lt lc) (wq : HSep own q lu ld) {t : Nat} (ht : t < q.trees.length) :
    h.ancestors (f t) = (q.ancestors t).map f := sim_ancestors s wh wq _ _ t ht (Nat.le_refl _) (Nat.le_refl _)

theorem insertBy_sim {le le' : Nat → Nat → Bool} {a : Nat} {l : List Nat} (hl : ∀ b ∈ l, le (g a) (g b) = le' a b) :
    insertBy le (g a) (l.map g) = (insertBy le' a l).map g := by
  induction l with
  | nil => rfl
  | cons b l ih =>
    rw [List.map_cons, insertBy, insertBy, hl b (by simp)]
    split
    · rfl
    · rw [ih fun c hc => hl c (by simp [hc])]; rfl

theorem sortBy_sim {le le' : Nat → Nat → Bool} {l : List Nat} (hl : ∀ a ∈ l, ∀ b ∈ l, le (g a) (g b) = le' a b) :
    sortBy le (l.map g) = (sortBy le' l).map g := by
  induction l with
  | nil => rfl
  | cons a l ih =>
    rw [List.map_cons, sortBy, sortBy, ih fun b hb c hc => hl b (by simp [hb]) c (by simp [hc])]
    exact insertBy_sim fun b hb => hl a (by simp) b (by
      have := (sortBy_perm le' l).mem_iff.1 hb
      simp [this])

theorem sortCells_sim (s : HSim h q f g) {l : List Nat} (hl : ∀ a ∈ l, a < q.cells.length) :
    h.sortCells (l.map g) = (q.sortCells l).map g :=
  sortBy_sim fun a ha b hb => by rw [s.r (hl a ha), s.r (hl b hb)]

theorem takeWhile_sim {p p' : Nat → Bool} {l : List Nat} (hl : ∀ b ∈ l, p (g b) = p' b) :
    ((l.map g).takeWhile p).length = (l.takeWhile p').length := by
  induction l with
  | nil => rfl
  | cons b l ih =>
    rw [List.map_cons, List.takeWhile_cons, List.takeWhile_cons, hl b (by simp)]
    split
    · simp [ih fun c hc => hl c (by simp [hc])]
    · rfl

theorem addSorted_sim (s : HSim h q f g) {l : List Nat} (hl : ∀ a ∈ l, a < q.cells.length) {a : Nat} (ha : a < q.cells.length) :
    h.addSorted (l.map g) (g a) = (q.addSorted l a).map g := by
  unfold addSorted
  dsimp only
  rw [takeWhile_sim (p' := fun b => decide (q.r b ≤ q.r a)) (fun b hb => by rw [s.r (hl b hb), s.r ha])]
  simp [List.map_take, List.map_drop]

theorem removeSorted_sim (s : HSim h q f g) {l : List Nat} (hl : ∀ a ∈ l, a < q.cells.length) {a : Nat} (ha : a < q.cells.length) :
    h.removeSorted (l.map g) (g a) = (q.removeSorted l a).map (List.map g) := by
  unfold removeSorted
  dsimp only
  rw [takeWhile_sim (p' := fun b => decide (q.r b < q.r a)) (fun b hb => by rw [s.r (hl b hb), s.r ha]), List.getElem?_map]
  generalize (l.takeWhile fun b => decide (q.r b < q.r a)).length = k
  cases hk : l[k]? with
  | none => rfl
  | some b =>
    simp only [Option.map_some]
    rw [s.r (hl b (List.mem_of_getElem? hk)), s.r ha]
    split
    · simp [Except.map, List.eraseIdx_eq_take_drop_succ, List.map_take, List.map_drop]
    · rfl

theorem sortedIndexes_sim (s : HSim h q f g) (w : HSep own q lu ld) {t : Nat} (ht : t < q.trees.length) :
    h.sortedIndexes (f t) = q.sortedIndexes t := by
  unfold sortedIndexes
  have e : (q.lst t).map (h.r ∘ g) = (q.lst t).map q.r := List.map_congr_left fun a ha => s.r (w.lst t ht a ha).1
  rw [s.lst t ht, List.map_map, e]

/-! ### Operations -/

theorem ext_shift {next : Heap → Nat → Heap} {next' : Heap → Nat → Heap}
    (hn : ∀ {h q : Heap} {a : Nat}, HSim h q f g → a < q.cells.length →
      (next h (g a) = h ∧ next' q a = q) ∨ ∃ x, next h (g a) = h.setR (g a) x ∧ next' q a = q.setR a x) (l : List Nat)
    (s : HSim h q f g) (hl : ∀ a ∈ l, a < q.cells.length) : Ext h q f g ((l.map g).foldl next h) (l.foldl next' q) f g := by
  induction l generalizing h q with
  | nil => exact .refl s
  | cons a l ih =>
    have c : Ext h q f g (next h (g a)) (next' q a) f g := by
      rcases hn s (hl a (by simp)) with ⟨e1, e2⟩ | ⟨x, e1, e2⟩
      · rw [e1, e2]; exact .refl s
      · rw [e1, e2]; exact ext_setR s (hl a (by simp)) x
    exact c.trans (ih c.sim fun b hb => Nat.lt_of_lt_of_le (hl b (by simp [hb])) c.clen.1)

theorem ext_shiftUp (l : List Nat) (x : Int) (s : HSim h q f g) (hl : ∀ a ∈ l, a < q.cells.length) :
    Ext h q f g (h.shiftUp (l.map g) x) (q.shiftUp l x) f g := by
  refine ext_shift (fun {h q a} s ha => ?_) l s hl
  rw [s.r ha]
  by_cases hc : x ≤ q.r a
  · exact .inr ⟨_, if_pos hc, if_pos hc⟩
  · exact .inl ⟨if_neg hc, if_neg hc⟩

theorem ext_shiftDown (l : List Nat) {ie : Nat} (s : HSim h q f g) (hie : ie < q.cells.length) (hl : ∀ a ∈ l, a < q.cells.length) :
    Ext h q f g (h.shiftDown (l.map g) (g ie)) (q.shiftDown l ie) f g := by
  have : ∀ (l : List Nat) {h q : Heap}, HSim h q f g → ie < q.cells.length → (∀ a ∈ l, a < q.cells.length) →
      Ext h q f g (h.shiftDown (l.map g) (g ie)) (q.shiftDown l ie) f g := by
    intro l
    induction l with
    | nil => intro h q s _ _; exact .refl s
    | cons a l ih =>
      intro h q s hie hl
      have ha := hl a (by simp)
      have c : Ext h q f g (if h.r (g ie) ≤ h.r (g a) then h.setR (g a) (h.r (g a) - 1) else h)
          (if q.r ie ≤ q.r a then q.setR a (q.r a - 1) else q) f g := by
        rw [s.r ha, s.r hie]
        split
        · exact ext_setR s ha _
        · exact .refl s
      exact c.trans (ih c.sim (Nat.lt_of_lt_of_le hie c.clen.1) fun b hb => Nat.lt_of_lt_of_le (hl b (by simp [hb])) c.clen.1)
  exact this l s hie hl

theorem ext_addAll (c : Cell) (hc : own c.ref = j) (ts : List Nat) (s : HSim h q f g) (w : HSep own q lu ld)
    (hts : ∀ t ∈ ts, t < q.trees.length ∧ lu t = j) :
    ∃ g', Ext h q f g (h.addAll c (ts.map f)) (q.addAll c ts) f g' := by
  induction ts generalizing h q g ld with
  | nil => exact ⟨g, .refl s⟩
  | cons t ts ih =>
    obtain ⟨h1, h2⟩ := hts t (by simp)
    have e1 := ext_cells s w [c]
    have c1 := ch_cells w [c] (j := j) (by simpa using hc)
    have hnew : q.cells.length < (q.cells ++ [c]).length := by simp
    have hgn : renumber q.cells.length h.cells.length g q.cells.length = h.cells.length := by rw [renumber_new (by omega)]; omega
    have hlst := e1.sim.lst t h1
    have hmem : ∀ a ∈ lst { q with cells := q.cells ++ [c] } t, a < (q.cells ++ [c]).length := fun a ha => (c1.sep.lst t h1 a ha).1
    have hadd := addSorted_sim e1.sim hmem hnew
    rw [hgn] at hadd
    have e2 := ext_setLst e1.sim h1 (addSorted { q with cells := q.cells ++ [c] } (lst { q with cells := q.cells ++ [c] } t) q.cells.length)
    have c2 : Ch own j _ lu _ _ lu _ := ch_setLst c1.sep
      (l := addSorted { q with cells := q.cells ++ [c] } (lst { q with cells := q.cells ++ [c] } t) q.cells.length) h2 (fun a ha => by
        rcases mem_addSorted ha with rfl | ha
        · refine ⟨by simp, ?_⟩
          unfold label; rw [if_neg (by omega)]
        · obtain ⟨h3, h4⟩ := c1.sep.lst t h1 a ha
          exact ⟨h3, by rw [h4, h2]⟩)
    obtain ⟨g', e3⟩ := ih (e1.trans e2).sim c2.sep (fun u hu => by
      obtain ⟨h5, h6⟩ := hts u (by simp [hu])
      exact ⟨by rw [tlen_setLst]; exact h5, h6⟩)
    refine ⟨g', ?_⟩
    have e4 := (e1.trans e2).trans e3
    rw [← hadd, ← hlst] at e4
    exact e4

theorem ext_removeAll {a : Nat} (ts : List Nat) (s : HSim h q f g) (w : HSep own q lu ld) (ha : a < q.cells.length)
    (hts : ∀ t ∈ ts, t < q.trees.length ∧ lu t = j) :
    Ext h q f g (h.removeAll (g a) (ts.map f)).1 (q.removeAll a ts).1 f g ∧
      (h.removeAll (g a) (ts.map f)).2 = (q.removeAll a ts).2 := by
  induction ts generalizing h q with
  | nil => exact ⟨.refl s, rfl⟩
  | cons t ts ih =>
    obtain ⟨h1, h2⟩ := hts t (by simp)
    have hmem : ∀ b ∈ q.lst t, b < q.cells.length := fun b hb => (w.lst t h1 b hb).1
    have hr := removeSorted_sim s hmem ha
    rw [List.map_cons, removeAll, removeAll, s.lst t h1, hr]
    cases hq : q.removeSorted (q.lst t) a with
    | error x => exact ⟨.refl s, rfl⟩
    | ok l =>
      have e1 := ext_setLst s h1 l
      have c1 : Ch own j q lu ld (q.setLst t l) lu ld := ch_setLst w h2 fun b hb => by
        obtain ⟨h3, h4⟩ := w.lst t h1 b (removeSorted_sub hq b hb)
        exact ⟨h3, by rw [h4, h2]⟩
      obtain ⟨e2, e3⟩ := ih e1.sim c1.sep ha (fun u hu => by rw [tlen_setLst]; exact hts u (by simp [hu]))
      exact ⟨e1.trans e2, e3⟩

theorem ext_insert (s : HSim h q f g) (wh : HSep own h lt lc) (wq : HSep own q lu ld) {t : Nat} (ht : t < q.trees.length)
    (hl : lu t = j) (hl' : lt (f t) = j) (pos : Int) (ref id : Nat) (hr : own ref = j) :
    ∃ g', Ext h q f g (h.insert (f t) pos ref id).1 (q.insert t pos ref id).1 f g' ∧
      (h.insert (f t) pos ref id).2 = (q.insert t pos ref id).2 := by
  unfold insert
  have hx : (if (h.lst (f t)).isEmpty then some 0 else pyIndex (h.sortedIndexes (f t)) pos) =
      (if (q.lst t).isEmpty then some 0 else pyIndex (q.sortedIndexes t) pos) := by
    rw [s.lst t ht, sortedIndexes_sim s wq ht]
    simp
  rw [hx]
  split
  · exact ⟨g, .refl s, rfl⟩
  · next x _ =>
    dsimp only
    obtain ⟨r1, r2⟩ := wq.root t ht
    have hrl : h.lst (h.root (f t)) = (q.lst (q.root t)).map g := by rw [s.root t ht, s.lst _ r1]
    have e1 := ext_shiftUp (q.lst (q.root t)) x s (fun a ha => (wq.lst _ r1 a ha).1)
    have c1 := ch_shiftUp (j := j) (q.lst (q.root t)) x wq (fun a ha => by rw [(wq.lst _ r1 a ha).2, r2, hl])
    obtain ⟨r3, r4⟩ := wh.root (f t) (s.tlt t ht)
    have c1' := ch_shiftUp (j := j) (h.lst (h.root (f t))) x wh (fun a ha => by rw [(wh.lst _ r3 a ha).2, r4, hl'])
    rw [hrl] at c1' ⊢
    have ht1 := Nat.lt_of_lt_of_le ht c1.tlen
    have hanc := ancestors_sim e1.sim c1'.sep c1.sep ht1
    obtain ⟨g', e2⟩ := ext_addAll ⟨x, ref, id⟩ hr (t :: (q.shiftUp (q.lst (q.root t)) x).ancestors t) e1.sim c1.sep (fun u hu => by
      rcases List.mem_cons.1 hu with rfl | hu
      · exact ⟨ht1, hl⟩
      · obtain ⟨h3, h4⟩ := ancestors_label c1.sep ht1 hu
        exact ⟨by omega, by rw [h4, hl]⟩)
    rw [List.map_cons, ← hanc] at e2
    exact ⟨g', e1.trans e2, rfl⟩

theorem any_sim (s : HSim h q f g) {l : List Nat} (hl : ∀ a ∈ l, a < q.cells.length) (id : Nat) :
    (l.map g).any (fun a => (h.cell a).id == id) = l.any (fun a => (q.cell a).id == id) := by
  induction l with
  | nil => rfl
  | cons a l ih =>
    rw [List.map_cons, List.any_cons, List.any_cons, ih fun b hb => hl b (by simp [hb]), s.cell a (hl a (by simp))]

theorem filter_sim {p p' : Nat → Bool} {l : List Nat} (hl : ∀ a ∈ l, p (g a) = p' a) : (l.map g).filter p = (l.filter p').map g := by
  induction l with
  | nil => rfl
  | cons a l ih =>
    rw [List.map_cons, List.filter_cons, List.filter_cons, hl a (by simp), ih fun b hb => hl b (by simp [hb])]
    split <;> rfl

theorem ext_pop (s : HSim h q f g) (wh : HSep own h lt lc) (wq : HSep own q lu ld) {t : Nat} (ht : t < q.trees.length)
    (hl : lu t = j) (hl' : lt (f t) = j) (id : Nat) (pos : Int) :
    Ext h q f g (h.pop (f t) id pos).1 (q.pop t id pos).1 f g ∧ (h.pop (f t) id pos).2 = (q.pop t id pos).2 := by
  have hmem : ∀ a ∈ q.lst t, a < q.cells.length := fun a ha => (wq.lst t ht a ha).1
  unfold pop
  rw [s.lst t ht, any_sim s hmem, filter_sim (p' := fun a => (q.cell a).id == id) (fun a ha => by rw [s.cell a (hmem a ha)]),
    pyIndex_map]
  split
  · cases hp : pyIndex ((q.lst t).filter fun a => (q.cell a).id == id) pos with
    | none => exact ⟨.refl s, rfl⟩
    | some ie =>
      simp only [Option.map_some]
      have hie : ie ∈ q.lst t := by
        have : ie ∈ (q.lst t).filter fun a => (q.cell a).id == id := by
          unfold pyIndex at hp
          split at hp
          · exact List.mem_of_getElem? hp
          · split at hp
            · exact List.mem_of_getElem? hp
            · cases hp
        exact (List.mem_filter.1 this).1
      have hlt := hmem ie hie
      have hanc := ancestors_sim s wh wq ht
      have hts : ∀ u ∈ t :: q.ancestors t, u < q.trees.length ∧ lu u = j := fun u hu => by
        rcases List.mem_cons.1 hu with rfl | hu
        · exact ⟨ht, hl⟩
        · obtain ⟨h3, h4⟩ := ancestors_label wq ht hu
          exact ⟨by omega, by rw [h4, hl]⟩
      obtain ⟨e1, e2⟩ := ext_removeAll (a := ie) (t :: q.ancestors t) s wq hlt hts
      have c1 := ch_removeAll (j := j) ie (t :: q.ancestors t) wq hts
      rw [List.map_cons, ← hanc] at e1 e2
      generalize hR : h.removeAll (g ie) (f t :: h.ancestors (f t)) = R at e1 e2
      generalize hS : q.removeAll ie (t :: q.ancestors t) = S at e1 e2 c1
      obtain ⟨R1, R2⟩ := R
      obtain ⟨S1, S2⟩ := S
      dsimp only at e1 e2 c1
      subst e2
      cases R2 with
      | error x => exact ⟨e1, rfl⟩
      | ok u =>
        dsimp only
        have ht1 := Nat.lt_of_lt_of_le ht c1.tlen
        obtain ⟨r1, r2⟩ := c1.sep.root t ht1
        have hie1 := Nat.lt_of_lt_of_le hlt c1.clen
        have hrl : R1.lst (R1.root (f t)) = (S1.lst (S1.root t)).map g := by rw [e1.sim.root t ht1, e1.sim.lst _ r1]
        rw [hrl, e1.sim.cell ie hie1]
        exact ⟨e1.trans (ext_shiftDown _ e1.sim hie1 fun a ha => (c1.sep.lst _ r1 a ha).1), rfl⟩
  · exact ⟨.refl s, rfl⟩

theorem ext_newTree (s : HSim h q f g) (wh : HSep own h lt lc) (wq : HSep own q lu ld) {par : Option Nat}
    (hp : ∀ p, par = some p → p < q.trees.length) {init : List Nat} (hi : ∀ a ∈ init, a < q.cells.length) :
    Ext h q f g (h.newTree (par.map f) (init.map g)).1 (q.newTree par init).1 (renumber q.trees.length h.trees.length f) g := by
  unfold newTree
  dsimp only
  rw [sortCells_sim s hi]
  cases par with
  | none => exact ext_tree s wq _ _ rfl (fun p hp' => by cases hp') (.inl ⟨rfl, rfl⟩) rfl
  | some p =>
    have hp1 := hp p rfl
    simp only [Option.map_some]
    rw [ancestors_sim s wh wq hp1]
    have htop : (((q.ancestors p).map f).getLast?).getD (f p) = f (((q.ancestors p).getLast?).getD p) := by
      rw [List.getLast?_map]
      cases (q.ancestors p).getLast? <;> rfl
    have htlt : ((q.ancestors p).getLast?).getD p < q.trees.length := by
      cases hg : (q.ancestors p).getLast? with
      | none => exact hp1
      | some u =>
        have := (ancestors_label wq hp1 (List.mem_of_getLast? hg)).1
        simp only [Option.getD_some]; omega
    rw [htop, s.lst _ htlt]
    have e1 := ext_addChild s (f p) p h.trees.length q.trees.length
    have w1 : HSep own (q.addChild p q.trees.length) lu ld := (ch_addChild (j := lu p) wq q.trees.length rfl).sep
    have e2 := ext_tree e1.sim w1
      ⟨some (f p), if ((q.lst (((q.ancestors p).getLast?).getD p)).map g).isEmpty then h.trees.length
        else f (((q.ancestors p).getLast?).getD p), (q.sortCells init).map g, []⟩
      ⟨some p, if (q.lst (((q.ancestors p).getLast?).getD p)).isEmpty then q.trees.length
        else ((q.ancestors p).getLast?).getD p, q.sortCells init, []⟩ rfl
      (fun p' hp' => by cases hp'; rw [tlen_addChild]; exact hp1)
      (by
        rw [tlen_addChild, tlen_addChild]
        simp only [List.isEmpty_map]
        split
        · exact .inl ⟨rfl, rfl⟩
        · exact .inr ⟨rfl, htlt⟩) rfl
    rw [tlen_addChild, tlen_addChild] at e2
    exact e1.trans e2

theorem ext_yieldViews (els : List (List Nat)) {t : Nat} (s : HSim h q f g) (wh : HSep own h lt lc) (wq : HSep own q lu ld)
    (ht : t < q.trees.length) (hl : lu t = j) (hl' : lt (f t) = j) (he : ∀ el ∈ els, ∀ a ∈ el, a < q.cells.length ∧ ld a = j)
    (he' : ∀ el ∈ els, ∀ a ∈ el, lc (g a) = j) :
    ∃ f', Ext h q f g (h.yieldViews (f t) (els.map (List.map g))).1 (q.yieldViews t els).1 f' g ∧
      (h.yieldViews (f t) (els.map (List.map g))).2 = (q.yieldViews t els).2.map f' := by
  induction els generalizing h q f lt lu with
  | nil => exact ⟨f, .refl s, rfl⟩
  | cons el els ih =>
    have hel := he el (by simp)
    have e1 := ext_newTree s wh wq (par := some t) (fun p hp => by cases hp; exact ht) (fun a ha => (hel a ha).1)
    obtain ⟨c1, n1, n2⟩ := ch_newTree (j := j) wq (par := some t) (fun p hp => by cases hp; exact ⟨ht, hl⟩) hel
    obtain ⟨d1, m1, m2⟩ := ch_newTree (j := j) wh (par := some (f t)) (init := el.map g)
      (fun p hp => by cases hp; exact ⟨s.tlt t ht, hl'⟩) (fun a ha => by
        obtain ⟨b, hb, rfl⟩ := List.mem_map.1 ha
        exact ⟨s.clt b (hel b hb).1, he' el (by simp) b hb⟩)
    rw [Option.map_some] at e1
    rw [List.map_cons, yieldViews, yieldViews]
    dsimp only
    rw [n1, m1]
    have hlab : label q.trees.length j lu t = j := by unfold label; rw [if_pos ht, hl]
    have hlab' : label h.trees.length j lt (f t) = j := by unfold label; rw [if_pos (s.tlt t ht), hl']
    have hft : renumber q.trees.length h.trees.length f t = f t := renumber_old ht
    have e2 := e1.trans (ext_addChild e1.sim (f t) t h.trees.length q.trees.length)
    have c2 := ch_addChild c1.sep q.trees.length hlab
    have d2 := ch_addChild d1.sep h.trees.length hlab'
    obtain ⟨f', e3, e4⟩ := ih e2.sim d2.sep c2.sep (by rw [tlen_addChild, n2]; omega) hlab (by rw [hft]; exact hlab')
      (fun el' h' a ha => by
        obtain ⟨h5, h6⟩ := he el' (by simp [h']) a ha
        exact ⟨Nat.lt_of_lt_of_le h5 e2.clen.1, h6⟩)
      (fun el' h' a ha => he' el' (by simp [h']) a ha)
    rw [hft] at e3 e4
    refine ⟨f', e2.trans e3, ?_⟩
    rw [e4, List.map_cons]
    congr 1
    rw [e3.told _ (by rw [tlen_addChild, n2]; omega), renumber_new (by omega)]
    omega

end

end Heap

end PyFLP
