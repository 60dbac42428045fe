import Verif.Process
import Verif.TreeOps
/-!
# Several projects in one process: what an action can reach

Trees and cells are labelled with the project they belong to (`HSep`).  An action on one project changes objects with its own
label only (`Ch`).  And it does the same as in a process in which the other projects were never opened, where objects have
other numbers (`HSim`).
-/

namespace PyFLP

namespace Heap

/-! ### Labels -/

/-- References stay within one project. -/
structure HSep (own : Nat → Nat) (h : Heap) (lt lc : Nat → Nat) : Prop where
  parent : ∀ t, t < h.trees.length → ∀ p, h.parent t = some p → p < t ∧ lt p = lt t
  root : ∀ t, t < h.trees.length → h.root t < h.trees.length ∧ lt (h.root t) = lt t
  lst : ∀ t, t < h.trees.length → ∀ a ∈ h.lst t, a < h.cells.length ∧ lc a = lt t
  ref : ∀ a, a < h.cells.length → own (h.cell a).ref = lc a

/-- Only objects of the project `j` have changed or were made. -/
structure Ch (own : Nat → Nat) (j : Nat) (h : Heap) (lt lc : Nat → Nat) (h' : Heap) (lt' lc' : Nat → Nat) : Prop where
  sep : HSep own h' lt' lc'
  tlen : h.trees.length ≤ h'.trees.length
  clen : h.cells.length ≤ h'.cells.length
  tlab : ∀ t, t < h.trees.length → lt' t = lt t
  clab : ∀ a, a < h.cells.length → lc' a = lc a
  tnew : ∀ t, h.trees.length ≤ t → t < h'.trees.length → lt' t = j
  cnew : ∀ a, h.cells.length ≤ a → a < h'.cells.length → lc' a = j
  trees : ∀ t, t < h.trees.length → lt t ≠ j → h'.tree t = h.tree t
  cells : ∀ a, a < h.cells.length → lc a ≠ j → h'.cell a = h.cell a

variable {own : Nat → Nat} {j : Nat} {h : Heap} {lt lc : Nat → Nat}

theorem Ch.refl (s : HSep own h lt lc) : Ch own j h lt lc h lt lc :=
  ⟨s, Nat.le_refl _, Nat.le_refl _, fun _ _ => rfl, fun _ _ => rfl, fun _ h1 h2 => by omega, fun _ h1 h2 => by omega,
    fun _ _ _ => rfl, fun _ _ _ => rfl⟩

theorem Ch.trans {h' h'' : Heap} {lt' lc' lt'' lc'' : Nat → Nat} (c : Ch own j h lt lc h' lt' lc')
    (d : Ch own j h' lt' lc' h'' lt'' lc'') : Ch own j h lt lc h'' lt'' lc'' where
  sep := d.sep
  tlen := Nat.le_trans c.tlen d.tlen
  clen := Nat.le_trans c.clen d.clen
  tlab t ht := by rw [d.tlab t (Nat.lt_of_lt_of_le ht c.tlen), c.tlab t ht]
  clab a ha := by rw [d.clab a (Nat.lt_of_lt_of_le ha c.clen), c.clab a ha]
  tnew t h1 h2 := by
    by_cases ht : t < h'.trees.length
    · rw [d.tlab t ht, c.tnew t h1 ht]
    · exact d.tnew t (by omega) h2
  cnew a h1 h2 := by
    by_cases ha : a < h'.cells.length
    · rw [d.clab a ha, c.cnew a h1 ha]
    · exact d.cnew a (by omega) h2
  trees t ht hne := by rw [d.trees t (Nat.lt_of_lt_of_le ht c.tlen) (by rw [c.tlab t ht]; exact hne), c.trees t ht hne]
  cells a ha hne := by rw [d.cells a (Nat.lt_of_lt_of_le ha c.clen) (by rw [c.clab a ha]; exact hne), c.cells a ha hne]

theorem ch_setR (s : HSep own h lt lc) {a : Nat} (x : Int) (ha : a < h.cells.length → lc a = j) :
    Ch own j h lt lc (h.setR a x) lt lc where
  sep := ⟨s.parent, s.root, fun t ht b hb => by rw [len_setR]; exact s.lst t ht b hb,
    fun b hb => by rw [ref_setR]; rw [len_setR] at hb; exact s.ref b hb⟩
  tlen := Nat.le_refl _
  clen := by rw [len_setR]; exact Nat.le_refl _
  tlab _ _ := rfl
  clab _ _ := rfl
  tnew t h1 h2 := by have : t < h.trees.length := h2; omega
  cnew b h1 h2 := by rw [len_setR] at h2; omega
  trees _ _ _ := rfl
  cells b hb hne := by
    rw [cell_setR, if_neg]
    rintro ⟨rfl, h2⟩
    exact hne (ha h2)

theorem ch_setLst (s : HSep own h lt lc) {t : Nat} {l : List Nat} (ht : lt t = j) (hl : ∀ a ∈ l, a < h.cells.length ∧ lc a = j) :
    Ch own j h lt lc (h.setLst t l) lt lc where
  sep := ⟨fun u hu p hp => by rw [tlen_setLst] at hu; rw [parent_setLst] at hp; exact s.parent u hu p hp,
    fun u hu => by rw [tlen_setLst] at hu ⊢; rw [root_setLst]; exact s.root u hu,
    fun u hu a ha => by
      rw [tlen_setLst] at hu
      rw [lst_setLst] at ha
      split at ha
      · next e => rw [e.1, ht]; exact hl a ha
      · exact s.lst u hu a ha,
    s.ref⟩
  tlen := by rw [tlen_setLst]; exact Nat.le_refl _
  clen := Nat.le_refl _
  tlab _ _ := rfl
  clab _ _ := rfl
  tnew u h1 h2 := by rw [tlen_setLst] at h2; omega
  cnew b h1 h2 := by have : b < h.cells.length := h2; omega
  trees u hu hne := by
    rw [tree_setLst, if_neg]
    rintro ⟨rfl, _⟩
    exact hne ht
  cells _ _ _ := rfl

theorem ch_addChild (s : HSep own h lt lc) {t : Nat} (c : Nat) (ht : lt t = j) : Ch own j h lt lc (h.addChild t c) lt lc where
  sep := ⟨fun u hu p hp => by rw [tlen_addChild] at hu; rw [parent_addChild] at hp; exact s.parent u hu p hp,
    fun u hu => by rw [tlen_addChild] at hu ⊢; rw [root_addChild]; exact s.root u hu,
    fun u hu a ha => by rw [tlen_addChild] at hu; rw [lst_addChild] at ha; exact s.lst u hu a ha,
    s.ref⟩
  tlen := by rw [tlen_addChild]; exact Nat.le_refl _
  clen := Nat.le_refl _
  tlab _ _ := rfl
  clab _ _ := rfl
  tnew u h1 h2 := by rw [tlen_addChild] at h2; omega
  cnew b h1 h2 := by have : b < h.cells.length := h2; omega
  trees u hu hne := by
    rw [tree_addChild, if_neg]
    rintro ⟨rfl, _⟩
    exact hne ht
  cells _ _ _ := rfl

/-- Labels of objects made for the project `j`. -/
def label (n j : Nat) (l : Nat → Nat) : Nat → Nat := fun a => if a < n then l a else j

theorem cell_append (h : Heap) (cs : List Cell) {a : Nat} (ha : a < h.cells.length) :
    ({ h with cells := h.cells ++ cs } : Heap).cell a = h.cell a := by
  simp [cell, List.getD_eq_getElem?_getD, List.getElem?_append_left ha]

theorem ch_cells (s : HSep own h lt lc) (cs : List Cell) (hc : ∀ c ∈ cs, own c.ref = j) :
    Ch own j h lt lc { h with cells := h.cells ++ cs } lt (label h.cells.length j lc) where
  sep := ⟨s.parent, s.root, fun t ht a ha => by
      obtain ⟨h1, h2⟩ := s.lst t ht a ha
      refine ⟨by simp only [List.length_append]; omega, ?_⟩
      unfold label; rw [if_pos h1]; exact h2,
    fun a ha => by
      unfold label
      split
      · next h1 => rw [cell_append h cs h1]; exact s.ref a h1
      · next h1 =>
        simp only [List.length_append] at ha
        have : (⟨h.cells ++ cs, h.trees⟩ : Heap).cell a = cs[a - h.cells.length]'(by omega) := by
          simp only [cell, List.getD_eq_getElem?_getD]
          rw [List.getElem?_append_right (by omega), List.getElem?_eq_getElem (by omega)]
          rfl
        rw [this]
        exact hc _ (List.getElem_mem ..)⟩
  tlen := Nat.le_refl _
  clen := by simp only [List.length_append]; omega
  tlab _ _ := rfl
  clab a ha := by unfold label; rw [if_pos ha]
  tnew t h1 h2 := by have : t < h.trees.length := h2; omega
  cnew a h1 h2 := by unfold label; rw [if_neg (by omega)]
  trees _ _ _ := rfl
  cells a ha _ := cell_append h cs ha

theorem tree_append (h : Heap) (o : Tree) (t : Nat) :
    ({ h with trees := h.trees ++ [o] } : Heap).tree t = if t = h.trees.length then o else h.tree t := by
  simp only [tree, List.getD_eq_getElem?_getD]
  split
  · next e => subst e; simp
  · next e =>
    by_cases ht : t < h.trees.length
    · rw [List.getElem?_append_left ht]
    · rw [List.getElem?_eq_none (by simp; omega), List.getElem?_eq_none (by omega)]

theorem ch_tree (s : HSep own h lt lc) (o : Tree) (hp : ∀ p, o.parent = some p → p < h.trees.length ∧ lt p = j)
    (hr : o.root = h.trees.length ∨ (o.root < h.trees.length ∧ lt o.root = j))
    (hl : ∀ a ∈ o.lst, a < h.cells.length ∧ lc a = j) :
    Ch own j h lt lc { h with trees := h.trees ++ [o] } (label h.trees.length j lt) lc where
  sep := by
    have key : ∀ t, t < (h.trees ++ [o]).length → ¬ t = h.trees.length → t < h.trees.length := by
      intro t h1 h2
      simp only [List.length_append, List.length_cons, List.length_nil] at h1
      omega
    refine ⟨fun t ht p hp' => ?_, fun t ht => ?_, fun t ht a ha => ?_, s.ref⟩
    · unfold parent at hp'
      rw [tree_append] at hp'
      split at hp'
      · next e =>
        obtain ⟨h1, h2⟩ := hp p hp'
        refine ⟨by omega, ?_⟩
        unfold label; rw [if_pos h1, if_neg (by omega)]; exact h2
      · next e =>
        have ht' := key t ht e
        obtain ⟨h1, h2⟩ := s.parent t ht' p hp'
        refine ⟨h1, ?_⟩
        unfold label; rw [if_pos (by omega), if_pos ht']; exact h2
    · unfold root
      rw [tree_append]
      split
      · next e =>
        have : label h.trees.length j lt t = j := by unfold label; rw [if_neg (by omega)]
        rw [this]
        rcases hr with hr | ⟨h1, h2⟩
        · rw [hr]
          refine ⟨by simp, ?_⟩
          unfold label; rw [if_neg (by omega)]
        · refine ⟨by simp only [List.length_append, List.length_cons, List.length_nil]; omega, ?_⟩
          unfold label; rw [if_pos h1]; exact h2
      · next e =>
        have ht' := key t ht e
        obtain ⟨h1, h2⟩ := s.root t ht'
        unfold root at h1 h2
        refine ⟨by simp only [List.length_append, List.length_cons, List.length_nil]; omega, ?_⟩
        unfold label; rw [if_pos h1, if_pos ht']; exact h2
    · unfold lst at ha
      rw [tree_append] at ha
      split at ha
      · next e =>
        obtain ⟨h1, h2⟩ := hl a ha
        refine ⟨h1, ?_⟩
        unfold label; rw [if_neg (by omega)]; exact h2
      · next e =>
        have ht' := key t ht e
        obtain ⟨h1, h2⟩ := s.lst t ht' a ha
        refine ⟨h1, ?_⟩
        unfold label; rw [if_pos ht']; exact h2
  tlen := by simp
  clen := Nat.le_refl _
  tlab t ht := by unfold label; rw [if_pos ht]
  clab _ _ := rfl
  tnew t h1 h2 := by unfold label; rw [if_neg (by omega)]
  cnew a h1 h2 := by have : a < h.cells.length := h2; omega
  trees t ht _ := by rw [tree_append, if_neg (by omega)]
  cells _ _ _ := rfl

/-! ### Operations change their own project only -/

theorem ancestorsUpTo_label (s : HSep own h lt lc) : ∀ n t, t < h.trees.length → ∀ u ∈ ancestorsUpTo h n t,
    u < t ∧ lt u = lt t := by
  intro n
  induction n with
  | zero => intro t _ u hu; cases hu
  | succ n ih =>
    intro t ht u hu
    unfold ancestorsUpTo at hu
    split at hu
    · cases hu
    · next p hp =>
      obtain ⟨h1, h2⟩ := s.parent t ht p hp
      rcases List.mem_cons.1 hu with rfl | hu
      · exact ⟨h1, h2⟩
      · obtain ⟨h3, h4⟩ := ih p (by omega) u hu
        exact ⟨by omega, by rw [h4, h2]⟩

theorem ancestors_label (s : HSep own h lt lc) {t : Nat} (ht : t < h.trees.length) {u : Nat} (hu : u ∈ h.ancestors t) :
    u < t ∧ lt u = lt t := ancestorsUpTo_label s t t ht u hu

theorem ch_shift {next : Heap → Nat → Heap} (hn : ∀ h a, next h a = h ∨ ∃ x, next h a = h.setR a x) (l : List Nat)
    (s : HSep own h lt lc) (hl : ∀ a ∈ l, lc a = j) : Ch own j h lt lc (l.foldl next h) lt lc := by
  induction l generalizing h with
  | nil => exact .refl s
  | cons a l ih =>
    have c : Ch own j h lt lc (next h a) lt lc := by
      rcases hn h a with e | ⟨x, e⟩
      · rw [e]; exact .refl s
      · rw [e]; exact ch_setR s x fun _ => hl a (by simp)
    exact c.trans (ih c.sep fun b hb => hl b (by simp [hb]))

theorem ch_shiftUp (l : List Nat) (x : Int) (s : HSep own h lt lc) (hl : ∀ a ∈ l, lc a = j) :
    Ch own j h lt lc (h.shiftUp l x) lt lc :=
  ch_shift (fun h a => by by_cases hc : x ≤ h.r a
                          · exact .inr ⟨_, if_pos hc⟩
                          · exact .inl (if_neg hc)) l s hl

theorem ch_shiftDown (l : List Nat) (ie : Nat) (s : HSep own h lt lc) (hl : ∀ a ∈ l, lc a = j) :
    Ch own j h lt lc (h.shiftDown l ie) lt lc :=
  ch_shift (fun h a => by by_cases hc : h.r ie ≤ h.r a
                          · exact .inr ⟨_, if_pos hc⟩
                          · exact .inl (if_neg hc)) l s hl

theorem mem_addSorted {l : List Nat} {a b : Nat} (hb : b ∈ h.addSorted l a) : b = a ∨ b ∈ l := by
  unfold addSorted at hb
  simp only [List.mem_append, List.mem_cons] at hb
  rcases hb with hb | hb | hb
  · exact .inr (List.mem_of_mem_take hb)
  · exact .inl hb
  · exact .inr (List.mem_of_mem_drop hb)

theorem ch_addAll (c : Cell) (hc : own c.ref = j) (ts : List Nat) (s : HSep own h lt lc)
    (hts : ∀ t ∈ ts, t < h.trees.length ∧ lt t = j) : ∃ lc', Ch own j h lt lc (h.addAll c ts) lt lc' := by
  induction ts generalizing h lc with
  | nil => exact ⟨lc, .refl s⟩
  | cons t ts ih =>
    obtain ⟨h1, h2⟩ := hts t (by simp)
    have c1 := ch_cells s [c] (by simpa using hc)
    have c2 : Ch own j _ lt _ _ lt _ := ch_setLst c1.sep
      (l := addSorted { h with cells := h.cells ++ [c] } (lst { h with cells := h.cells ++ [c] } t) h.cells.length) h2 (fun a ha => by
        rcases mem_addSorted ha with rfl | ha
        · refine ⟨by simp, ?_⟩
          unfold label; rw [if_neg (by omega)]
        · obtain ⟨h3, h4⟩ := c1.sep.lst t h1 a ha
          exact ⟨h3, by rw [h4, h2]⟩)
    have c3 := c1.trans c2
    obtain ⟨lc', c4⟩ := ih c3.sep (fun u hu => by
      obtain ⟨h5, h6⟩ := hts u (by simp [hu])
      exact ⟨by rw [tlen_setLst]; exact h5, h6⟩)
    exact ⟨lc', c3.trans c4⟩

theorem removeSorted_sub {l l' : List Nat} {a : Nat} (hr : h.removeSorted l a = .ok l') : ∀ b ∈ l', b ∈ l := by
  unfold removeSorted at hr
  dsimp only at hr
  split at hr
  · cases hr
  · split at hr
    · cases hr; exact fun b hb => List.mem_of_mem_eraseIdx hb
    · cases hr

theorem ch_removeAll (a : Nat) (ts : List Nat) (s : HSep own h lt lc) (hts : ∀ t ∈ ts, t < h.trees.length ∧ lt t = j) :
    Ch own j h lt lc (h.removeAll a ts).1 lt lc := by
  induction ts generalizing h with
  | nil => exact .refl s
  | cons t ts ih =>
    obtain ⟨h1, h2⟩ := hts t (by simp)
    unfold removeAll
    split
    · exact .refl s
    · next l hl =>
      have c1 : Ch own j h lt lc (h.setLst t l) lt lc := ch_setLst s h2 fun b hb => by
        obtain ⟨h3, h4⟩ := s.lst t h1 b (removeSorted_sub hl b hb)
        exact ⟨h3, by rw [h4, h2]⟩
      exact c1.trans (ih c1.sep fun u hu => by rw [tlen_setLst]; exact hts u (by simp [hu]))

theorem ch_insert (s : HSep own h lt lc) {t : Nat} (ht : t < h.trees.length) (hl : lt t = j) (pos : Int) (ref id : Nat)
    (hr : own ref = j) : ∃ lc', Ch own j h lt lc (h.insert t pos ref id).1 lt lc' := by
  unfold insert
  split
  · exact ⟨lc, .refl s⟩
  · next x _ =>
    dsimp only
    obtain ⟨r1, r2⟩ := s.root t ht
    have c1 := ch_shiftUp (j := j) (h.lst (h.root t)) x s (fun a ha => by rw [(s.lst _ r1 a ha).2, r2, hl])
    have ht1 := Nat.lt_of_lt_of_le ht c1.tlen
    obtain ⟨lc', c2⟩ := ch_addAll ⟨x, ref, id⟩ hr (t :: (h.shiftUp (h.lst (h.root t)) x).ancestors t) c1.sep (fun u hu => by
      rcases List.mem_cons.1 hu with rfl | hu
      · exact ⟨ht1, hl⟩
      · obtain ⟨h3, h4⟩ := ancestors_label c1.sep ht1 hu
        exact ⟨by omega, by rw [h4, hl]⟩)
    exact ⟨lc', c1.trans c2⟩

theorem ch_pop (s : HSep own h lt lc) {t : Nat} (ht : t < h.trees.length) (hl : lt t = j) (id : Nat) (pos : Int) :
    Ch own j h lt lc (h.pop t id pos).1 lt lc := by
  unfold pop
  split
  · split
    · exact .refl s
    · next ie _ =>
      have c1 := ch_removeAll (j := j) ie (t :: h.ancestors t) s (fun u hu => by
        rcases List.mem_cons.1 hu with rfl | hu
        · exact ⟨ht, hl⟩
        · obtain ⟨h3, h4⟩ := ancestors_label s ht hu
          exact ⟨by omega, by rw [h4, hl]⟩)
      split
      · next h1 _ he => rw [he] at c1; exact c1
      · next h1 he =>
        rw [he] at c1
        dsimp only at c1 ⊢
        obtain ⟨r1, r2⟩ := c1.sep.root t (Nat.lt_of_lt_of_le ht c1.tlen)
        exact c1.trans (ch_shiftDown _ _ c1.sep (fun a ha => by rw [(c1.sep.lst _ r1 a ha).2, r2, hl]))
  · exact .refl s

theorem mem_sortCells {l : List Nat} {a : Nat} : a ∈ h.sortCells l ↔ a ∈ l := (sortBy_perm _ l).mem_iff

theorem ch_newTree (s : HSep own h lt lc) {par : Option Nat} (hp : ∀ p, par = some p → p < h.trees.length ∧ lt p = j)
    {init : List Nat} (hi : ∀ a ∈ init, a < h.cells.length ∧ lc a = j) :
    Ch own j h lt lc (h.newTree par init).1 (label h.trees.length j lt) lc ∧ (h.newTree par init).2 = h.trees.length ∧
      (h.newTree par init).1.trees.length = h.trees.length + 1 := by
  have hs : ∀ a ∈ h.sortCells init, a < h.cells.length ∧ lc a = j := fun a ha => hi a (mem_sortCells.1 ha)
  unfold newTree
  dsimp only
  cases par with
  | none =>
    refine ⟨ch_tree s _ (fun p hp' => by cases hp') (.inl rfl) hs, rfl, by simp⟩
  | some p =>
    obtain ⟨p1, p2⟩ := hp p rfl
    dsimp only
    have c1 : Ch own j h lt lc (h.addChild p h.trees.length) lt lc := ch_addChild s _ p2
    have hlen := tlen_addChild h p h.trees.length
    refine ⟨?_, rfl, by simp [hlen]⟩
    have c2 := ch_tree (j := j) c1.sep ⟨some p,
      if (h.lst (((h.ancestors p).getLast?).getD p)).isEmpty then h.trees.length else ((h.ancestors p).getLast?).getD p,
      h.sortCells init, []⟩ (fun q hq => by cases hq; rw [hlen]; exact ⟨p1, p2⟩) (by
        rw [hlen]
        dsimp only
        split
        · exact .inl rfl
        · right
          cases hg : (h.ancestors p).getLast? with
          | none => exact ⟨p1, p2⟩
          | some u =>
            obtain ⟨h3, h4⟩ := ancestors_label s p1 (List.mem_of_getLast? hg)
            exact ⟨by simp only [Option.getD_some]; omega, by simp only [Option.getD_some]; rw [h4, p2]⟩) hs
    rw [hlen] at c2
    exact c1.trans c2

theorem ch_yieldViews (els : List (List Nat)) {t : Nat} (s : HSep own h lt lc) (ht : t < h.trees.length) (hl : lt t = j)
    (he : ∀ el ∈ els, ∀ a ∈ el, a < h.cells.length ∧ lc a = j) :
    ∃ lt', Ch own j h lt lc (h.yieldViews t els).1 lt' lc ∧
      ∀ v ∈ (h.yieldViews t els).2, h.trees.length ≤ v ∧ v < (h.yieldViews t els).1.trees.length := by
  induction els generalizing h lt with
  | nil => exact ⟨lt, .refl s, by simp [yieldViews]⟩
  | cons el els ih =>
    obtain ⟨c1, n1, n2⟩ := ch_newTree (j := j) s (par := some t) (fun p hp => by cases hp; exact ⟨ht, hl⟩) (he el (by simp))
    have hlab : label h.trees.length j lt t = j := by unfold label; rw [if_pos ht, hl]
    have c2 : Ch own j (h.newTree (some t) el).1 _ lc ((h.newTree (some t) el).1.addChild t (h.newTree (some t) el).2) _ lc :=
      ch_addChild c1.sep _ hlab
    have c3 := c1.trans c2
    obtain ⟨lt', c4, hv⟩ := ih c3.sep (by rw [tlen_addChild, n2]; omega) hlab (fun el' h' a ha => by
      obtain ⟨h5, h6⟩ := he el' (by simp [h']) a ha
      exact ⟨Nat.lt_of_lt_of_le h5 c3.clen, h6⟩)
    refine ⟨lt', c3.trans c4, ?_⟩
    intro v hv'
    have hle := c4.tlen
    rw [tlen_addChild, n2] at hle
    rcases List.mem_cons.1 hv' with rfl | hv'
    · exact ⟨Nat.le_refl _, by unfold yieldViews; dsimp only; omega⟩
    · obtain ⟨h5, h6⟩ := hv v hv'
      rw [tlen_addChild, n2] at h5
      exact ⟨by omega, h6⟩

end Heap

end PyFLP
