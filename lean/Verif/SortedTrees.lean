import Verif.SortedList
import Verif.Loose
/-!
# `EventTree`s with the chunked lists of `sortedcontainers`

The operations of `Tree.lean` once more, with `SortedList`s (`SortedList.lean`) in place of plain lists, and the proof that they
do the same as long as the lists are sorted.
-/

namespace PyFLP

/-- An `EventTree` object (`_events.py:407-433`) whose `lst` is a chunked list. -/
structure STree where
  parent : Option Nat
  root : Nat
  lst : SList
  children : List Nat

instance : Inhabited STree := ⟨⟨none, 0, ⟨[], []⟩, []⟩⟩

/-- All `IndexedEvent`s and `EventTree`s. -/
structure SHeap where
  cells : List Cell
  trees : List STree

/-- What iterating over the lists shows (`_events.py:451-452`). -/
def STree.flat (o : STree) : Tree := ⟨o.parent, o.root, o.lst.values, o.children⟩

namespace SHeap

/-- The same objects with what iterating over the lists shows; everything but `add`, `remove` and the constructor only iterates
over the lists. -/
def flat (s : SHeap) : Heap := ⟨s.cells, s.trees.map STree.flat⟩

/-- `et.lst`. -/
def slst (s : SHeap) (t : Nat) : SList := (s.trees.getD t default).lst

/-- In-place change of `et.lst`. -/
def setLst (s : SHeap) (t : Nat) (l : SList) : SHeap :=
  { s with trees := s.trees.modify t fun o => { o with lst := l } }

/-- `et.children.append(c)`. -/
def addChild (s : SHeap) (t c : Nat) : SHeap :=
  { s with trees := s.trees.modify t fun o => { o with children := o.children ++ [c] } }

/-- `EventTree.__init__` (`_events.py:418-433`). -/
def newTree (s : SHeap) (par : Option Nat) (init : List Nat) : SHeap × Nat :=
  let t := s.trees.length
  let l := SList.ofSorted (s.flat.sortCells init)
  let s1 := match par with
    | none => s
    | some p => s.addChild p t
  let root := match par with
    | none => t
    | some p =>
      let top := ((s.flat.ancestors p).getLast?).getD p
      if (s.flat.lst top).isEmpty then t else top
  ({ s1 with trees := s1.trees ++ [⟨par, root, l, []⟩] }, t)

/-- `_recursive(lambda et: et.lst.add(IndexedEvent(rootidx, e)))` (`_events.py:527`). -/
def addAll (s : SHeap) (c : Cell) : List Nat → SHeap
  | [] => s
  | t :: ts =>
    let a := s.cells.length
    let s1 : SHeap := { s with cells := s.cells ++ [c] }
    addAll (s1.setLst t ((s1.slst t).add s1.flat a)) c ts

/-- `_recursive(lambda et: et.lst.remove(ie))` (`_events.py:535`). -/
def removeAll (s : SHeap) (a : Nat) : List Nat → SHeap × Py Unit
  | [] => (s, .ok ())
  | t :: ts =>
    match (s.slst t).remove s.flat a with
    | .error e => (s, .error e)
    | .ok l => removeAll (s.setLst t l) a ts

/-- `EventTree.insert(pos, e)` (`_events.py:517-527`). -/
def insert (s : SHeap) (t : Nat) (pos : Int) (ref id : Nat) : SHeap × Py Unit :=
  match (if (s.flat.lst t).isEmpty then some 0 else pyIndex (s.flat.sortedIndexes t) pos) with
  | none => (s, .error .indexError)
  | some x =>
    let s1 : SHeap := { s with cells := (s.flat.shiftUp (s.flat.lst (s.flat.root t)) x).cells }
    (s1.addAll ⟨x, ref, id⟩ (t :: s1.flat.ancestors t), .ok ())

/-- `EventTree.pop(id, pos)` (`_events.py:529-542`). -/
def pop (s : SHeap) (t : Nat) (id : Nat) (pos : Int) : SHeap × Py Nat :=
  if (s.flat.lst t).any (fun a => (s.flat.cell a).id == id) then
    match pyIndex ((s.flat.lst t).filter fun a => (s.flat.cell a).id == id) pos with
    | none => (s, .error .indexError)
    | some ie =>
      match s.removeAll ie (t :: s.flat.ancestors t) with
      | (s1, .error e) => (s1, .error e)
      | (s1, .ok ()) =>
        ({ s1 with cells := (s1.flat.shiftDown (s1.flat.lst (s1.flat.root t)) ie).cells }, .ok (s1.flat.cell ie).ref)
  else (s, .error .keyError)

/-- `EventTree.remove(id, pos)` (`_events.py:544-546`). -/
def remove (s : SHeap) (t : Nat) (id : Nat) (pos : Int) : SHeap × Py Unit :=
  match s.pop t id pos with
  | (s', .ok _) => (s', .ok ())
  | (s', .error e) => (s', .error e)

/-- Views handed out by a `yields_child` generator (`_events.py:396-404`). -/
def yieldViews (s : SHeap) (t : Nat) : List (List Nat) → SHeap × List Nat
  | [] => (s, [])
  | el :: els =>
    let (s1, v) := s.newTree (some t) el
    let (s2, vs) := yieldViews (s1.addChild t v) t els
    (s2, v :: vs)

open Spec in
/-- The methods that create views (`_events.py:480-494`, `512-515`, `549-592`). -/
def view (s : SHeap) (t : Nat) : ViewCall → SHeap × List Nat
  | .subtree select =>
    let (s1, v) := s.newTree (some t) ((s.flat.lst t).filter select)
    (s1.addChild t v, [v])
  | .separate id => s.yieldViews t (((s.flat.lst t).filter fun a => s.flat.idOf a = id).map fun a => [a])
  | .divide sep ids => s.yieldViews t (divideLoop s.flat.idOf sep ids (s.flat.lst t) [] true)
  | .subtrees _ select σ rep => s.yieldViews t (subtreesLoop (runSelect select σ (s.flat.lst t)) [] rep)
  | .group ids _ => s.yieldViews t (groupLists s.flat.idOf (s.flat.lst t) ids)

/-- The event tree `parse` builds (`__init__.py:168-173`). -/
def ofEvents (evs : List (Nat × Nat)) : SHeap :=
  let cells := evs.zipIdx.map fun x => ⟨x.2, x.1.1, x.1.2⟩
  (newTree ⟨cells, []⟩ none (List.range evs.length)).1

/-- All lists are properly chunked. -/
def Inv (s : SHeap) : Prop := ∀ o ∈ s.trees, o.lst.Inv

/-! ### The same without chunks -/

theorem slst_values (s : SHeap) (t : Nat) : (s.slst t).values = s.flat.lst t := by
  unfold slst flat Heap.lst Heap.tree
  rw [List.getD_eq_getElem?_getD, List.getD_eq_getElem?_getD, List.getElem?_map]
  cases s.trees[t]? <;> rfl

theorem slst_inv {s : SHeap} (hs : s.Inv) (t : Nat) : (s.slst t).Inv := by
  unfold slst
  rw [List.getD_eq_getElem?_getD]
  cases h : s.trees[t]? with
  | none => exact ⟨rfl, by intro c hc; cases hc⟩
  | some o => exact hs o (List.mem_of_getElem? h)

theorem flat_modify (l : List STree) (t : Nat) (f : STree → STree) (g : Tree → Tree) (hfg : ∀ o, (f o).flat = g o.flat) :
    (l.modify t f).map STree.flat = (l.map STree.flat).modify t g := by
  apply List.ext_getElem?
  intro i
  rw [List.getElem?_map, List.getElem?_modify, List.getElem?_modify, List.getElem?_map]
  cases l[i]? with
  | none => rfl
  | some o =>
    simp only [Option.map_some]
    split
    · exact congrArg some (hfg o)
    · rfl

theorem flat_setLst (s : SHeap) (t : Nat) (l : SList) : (s.setLst t l).flat = s.flat.setLst t l.values := by
  unfold setLst flat Heap.setLst
  dsimp only
  rw [flat_modify _ _ _ (fun o => { o with lst := l.values }) (fun o => rfl)]

theorem flat_addChild (s : SHeap) (t c : Nat) : (s.addChild t c).flat = s.flat.addChild t c := by
  unfold addChild flat Heap.addChild
  dsimp only
  rw [flat_modify _ _ _ (fun o => { o with children := o.children ++ [c] }) (fun o => rfl)]

theorem inv_modify {s : SHeap} (hs : s.Inv) (t : Nat) (f : STree → STree) (hf : ∀ o, o.lst.Inv → (f o).lst.Inv) (cs : List Cell) :
    Inv ⟨cs, s.trees.modify t f⟩ := by
  intro o ho
  obtain ⟨i, hi⟩ := List.mem_iff_getElem?.1 ho
  dsimp only at hi
  rw [List.getElem?_modify] at hi
  cases hx : s.trees[i]? with
  | none => rw [hx] at hi; cases hi
  | some x =>
    rw [hx] at hi
    have hxi := hs x (List.mem_of_getElem? hx)
    have hi' := Option.some.inj hi
    subst hi'
    dsimp only
    split
    · exact hf x hxi
    · exact hxi

theorem newTree_flat {s : SHeap} (hs : s.Inv) (par : Option Nat) (init : List Nat) :
    (s.newTree par init).1.Inv ∧ (s.newTree par init).1.flat = (s.flat.newTree par init).1 ∧
    (s.newTree par init).2 = (s.flat.newTree par init).2 := by
  have hlen : s.flat.trees.length = s.trees.length := by simp [flat]
  cases par with
  | none =>
    refine ⟨?_, ?_, hlen.symm⟩
    · intro o ho
      rcases List.mem_append.1 ho with ho | ho
      · exact hs o ho
      · rw [List.mem_singleton.1 ho]; exact SList.ofSorted_inv _
    · unfold newTree Heap.newTree
      dsimp only [flat]
      rw [List.map_append, List.map_cons, List.map_nil, STree.flat, List.length_map]
      dsimp only
      rw [SList.ofSorted_values]
  | some p =>
    refine ⟨?_, ?_, hlen.symm⟩
    · intro o ho
      rcases List.mem_append.1 ho with ho | ho
      · exact inv_modify hs p (fun o => { o with children := o.children ++ [s.trees.length] }) (fun o h => h) s.cells o ho
      · rw [List.mem_singleton.1 ho]; exact SList.ofSorted_inv _
    · have h1 := flat_addChild s p s.trees.length
      unfold newTree Heap.newTree
      dsimp only
      rw [hlen, ← h1]
      show (⟨_, _⟩ : Heap) = _
      rw [List.map_append, List.map_cons, List.map_nil, STree.flat]
      dsimp only
      rw [SList.ofSorted_values]
      rfl

theorem addChild_inv {s : SHeap} (hs : s.Inv) (t c : Nat) : (s.addChild t c).Inv :=
  inv_modify hs t (fun o => { o with children := o.children ++ [c] }) (fun _ h => h) s.cells

theorem yieldViews_flat {t : Nat} (els : List (List Nat)) {s : SHeap} (hs : s.Inv) :
    (s.yieldViews t els).1.Inv ∧ (s.yieldViews t els).1.flat = (s.flat.yieldViews t els).1 ∧
    (s.yieldViews t els).2 = (s.flat.yieldViews t els).2 := by
  induction els generalizing s with
  | nil => exact ⟨hs, rfl, rfl⟩
  | cons el els ih =>
    obtain ⟨n1, n2, n3⟩ := newTree_flat hs (some t) el
    obtain ⟨i1, i2, i3⟩ := ih (addChild_inv n1 t (s.newTree (some t) el).2)
    rw [flat_addChild, n2] at i2 i3
    refine ⟨i1, ?_, ?_⟩
    · simp only [Heap.yieldViews]
      rw [← n3]
      exact i2
    · simp only [Heap.yieldViews]
      rw [← n3]
      show (s.newTree (some t) el).2 :: (((s.newTree (some t) el).1.addChild t (s.newTree (some t) el).2).yieldViews t els).2 = _
      rw [i3]

/-- Views are the same. -/
theorem view_flat {s : SHeap} (hs : s.Inv) (t : Nat) (call : Spec.ViewCall) :
    (s.view t call).1.Inv ∧ (s.view t call).1.flat = (Spec.view s.flat t call).1 ∧
    (s.view t call).2 = (Spec.view s.flat t call).2 := by
  cases call with
  | subtree select =>
    obtain ⟨n1, n2, n3⟩ := newTree_flat hs (some t) ((s.flat.lst t).filter select)
    refine ⟨addChild_inv n1 _ _, ?_, congrArg (fun x => [x]) n3⟩
    have h1 := flat_addChild (s.newTree (some t) ((s.flat.lst t).filter select)).1 t (s.newTree (some t) ((s.flat.lst t).filter select)).2
    rw [n2, n3] at h1
    rw [← n3] at h1
    refine Eq.trans ?_ (h1.trans ?_)
    · rfl
    · rw [n3]; rfl
  | separate id => exact yieldViews_flat _ hs
  | divide sep ids => exact yieldViews_flat _ hs
  | subtrees _ select σ rep => exact yieldViews_flat _ hs
  | group ids _ => exact yieldViews_flat _ hs

theorem addAll_flat (c : Cell) (ts : List Nat) {s : SHeap} (hs : s.Inv) (hn : ts.Nodup)
    (hok : ∀ t ∈ ts, ((s.flat.lst t).Pairwise fun a b => s.flat.r a ≤ s.flat.r b) ∧ ∀ b ∈ s.flat.lst t, b < s.cells.length) :
    (s.addAll c ts).Inv ∧ (s.addAll c ts).flat = s.flat.addAll c ts := by
  induction ts generalizing s with
  | nil => exact ⟨hs, rfl⟩
  | cons t ts ih =>
    rw [List.nodup_cons] at hn
    let s1 : SHeap := { s with cells := s.cells ++ [c] }
    have hs1 : s1.Inv := hs
    have hlst1 : ∀ u, s1.flat.lst u = s.flat.lst u := fun u => rfl
    have hr1 : ∀ b < s.cells.length, s1.flat.r b = s.flat.r b := fun b hb => by
      unfold Heap.r Heap.cell
      show ((s.cells ++ [c]).getD b default).r = (s.cells.getD b default).r
      rw [List.getD_eq_getElem?_getD, List.getElem?_append_left hb, List.getD_eq_getElem?_getD]
    have hsort : ∀ u ∈ t :: ts, (s1.flat.lst u).Pairwise fun a b => s1.flat.r a ≤ s1.flat.r b := by
      intro u hu
      obtain ⟨k1, k2⟩ := hok u hu
      rw [hlst1]
      exact List.Pairwise.imp_of_mem (fun {a b} ha hb hab => by rw [hr1 a (k2 a ha), hr1 b (k2 b hb)]; exact hab) k1
    obtain ⟨a1, a2⟩ := SList.add_ok (slst_inv hs1 t) (by rw [slst_values]; exact hsort t (by simp)) s.cells.length
    rw [slst_values] at a2
    let s2 := s1.setLst t ((s1.slst t).add s1.flat s.cells.length)
    have hs2 : s2.Inv := inv_modify hs1 t _ (fun _ _ => a1) _
    have hflat2 : s2.flat = s1.flat.setLst t (s1.flat.addSorted (s1.flat.lst t) s.cells.length) := by
      show (s1.setLst t _).flat = _
      rw [flat_setLst, a2]
    have hr2 : ∀ b, s2.flat.r b = s1.flat.r b := fun b => by rw [hflat2]; rfl
    have hl2 : ∀ u ∈ ts, s2.flat.lst u = s1.flat.lst u := fun u hu => by
      have hne : u ≠ t := fun e => hn.1 (e ▸ hu)
      rw [hflat2, Heap.lst_setLst]
      simp [hne]
    obtain ⟨i1, i2⟩ := ih hs2 hn.2 (by
      intro u hu
      rw [hl2 u hu]
      refine ⟨?_, fun b hb => ?_⟩
      · exact (hsort u (by simp [hu])).imp fun {a b} hab => by rw [hr2, hr2]; exact hab
      · have := (hok u (by simp [hu])).2 b hb
        show b < (s.cells ++ [c]).length
        rw [List.length_append]; omega)
    refine ⟨i1, i2.trans ?_⟩
    rw [hflat2]
    rfl

theorem removeAll_flat (a : Nat) (ts : List Nat) {s : SHeap} (hs : s.Inv) (hn : ts.Nodup)
    (hok : ∀ t ∈ ts, (s.flat.lst t).Pairwise fun b c => s.flat.r b ≤ s.flat.r c) :
    (s.removeAll a ts).1.Inv ∧ (s.removeAll a ts).1.flat = (s.flat.removeAll a ts).1 ∧
    (s.removeAll a ts).2 = (s.flat.removeAll a ts).2 := by
  induction ts generalizing s with
  | nil => exact ⟨hs, rfl, rfl⟩
  | cons t ts ih =>
    rw [List.nodup_cons] at hn
    have hrm := SList.remove_ok (slst_inv hs t) (by rw [slst_values]; exact hok t (by simp)) a
    rw [slst_values] at hrm
    unfold removeAll Heap.removeAll
    cases h : (s.slst t).remove s.flat a with
    | error e =>
      rw [h] at hrm
      dsimp only at hrm ⊢
      rw [hrm]
      exact ⟨hs, rfl, rfl⟩
    | ok l =>
      rw [h] at hrm
      obtain ⟨r1, r2⟩ := hrm
      dsimp only
      rw [r2]
      dsimp only
      have hflat := flat_setLst s t l
      obtain ⟨i1, i2, i3⟩ := ih (s := s.setLst t l) (inv_modify hs t _ (fun _ _ => r1) _) hn.2 (by
        intro u hu
        have hne : u ≠ t := fun e => hn.1 (e ▸ hu)
        rw [hflat, Heap.lst_setLst]
        simp only [hne, false_and, if_false]
        exact hok u (by simp [hu]))
      rw [hflat] at i2 i3
      exact ⟨i1, i2, i3⟩

theorem cells_flat (s : SHeap) (cs : List Cell) : (⟨cs, s.trees⟩ : SHeap).flat = ⟨cs, s.flat.trees⟩ := rfl

/-- `insert` is the same through views whose positions are right. -/
theorem insert_flat {s : SHeap} (hs : s.Inv) {V : Nat → Prop} (g : Heap.Fair s.flat V) {t : Nat} (ht : V t) (pos : Int)
    (ref id : Nat) : (s.insert t pos ref id).1.Inv ∧ (s.insert t pos ref id).1.flat = (s.flat.insert t pos ref id).1 ∧
    (s.insert t pos ref id).2 = (s.flat.insert t pos ref id).2 := by
  unfold insert Heap.insert
  cases hx : (if (s.flat.lst t).isEmpty then some 0 else pyIndex (s.flat.sortedIndexes t) pos) with
  | none => exact ⟨hs, rfl, rfl⟩
  | some x =>
    dsimp only
    obtain ⟨c1, c2, c3⟩ := g.chain ht
    rw [g.rootV t ht]
    obtain ⟨d1, d2, d3⟩ := Heap.shiftUp_spec (s.flat.lst 0) x s.flat (g.sorted 0 g.v0).nodup (g.inCells 0 g.v0)
    have hflat : (⟨(s.flat.shiftUp (s.flat.lst 0) x).cells, s.trees⟩ : SHeap).flat = s.flat.shiftUp (s.flat.lst 0) x := by
      rw [cells_flat, ← d2]
    let s1 : SHeap := ⟨(s.flat.shiftUp (s.flat.lst 0) x).cells, s.trees⟩
    have hanc : s1.flat.ancestors t = s.flat.ancestors t :=
      Heap.ancestors_congr (fun u => by show Heap.parent s1.flat u = _; rw [hflat]; unfold Heap.parent Heap.tree; rw [d2]) t
    obtain ⟨a1, a2⟩ := addAll_flat ⟨x, ref, id⟩ (t :: s1.flat.ancestors t) (s := s1) hs (by rw [hanc]; exact c3) (by
      intro u hu
      rw [hanc] at hu
      obtain ⟨k1, k2⟩ := c2 u hu
      have hl : s1.flat.lst u = s.flat.lst u := rfl
      rw [hl]
      refine ⟨?_, fun b hb => ?_⟩
      · refine List.Pairwise.imp_of_mem ?_ (g.sorted u k1)
        intro a b ha hb hab
        rw [hflat, d3, d3]
        split <;> split <;> omega
      · show b < (s.flat.shiftUp (s.flat.lst 0) x).cells.length
        rw [d1.len]; exact g.inCells u k1 b hb)
    refine ⟨a1, ?_, rfl⟩
    refine a2.trans ?_
    rw [hflat]

/-- `pop` is the same through views whose positions are right. -/
theorem pop_flat {s : SHeap} (hs : s.Inv) {V : Nat → Prop} (g : Heap.Fair s.flat V) {t : Nat} (ht : V t) (id : Nat) (pos : Int) :
    (s.pop t id pos).1.Inv ∧ (s.pop t id pos).1.flat = (s.flat.pop t id pos).1 ∧
    (s.pop t id pos).2 = (s.flat.pop t id pos).2 := by
  unfold pop Heap.pop
  split
  · cases hx : pyIndex ((s.flat.lst t).filter fun a => (s.flat.cell a).id == id) pos with
    | none => exact ⟨hs, rfl, rfl⟩
    | some ie =>
      dsimp only
      obtain ⟨c1, c2, c3⟩ := g.chain ht
      obtain ⟨r1, r2, r3⟩ := removeAll_flat ie (t :: s.flat.ancestors t) hs c3 (fun u hu =>
        (g.sorted u (c2 u hu).1).imp fun hab => by omega)
      cases hr : s.removeAll ie (t :: s.flat.ancestors t) with
      | mk s1 o =>
        cases hf : s.flat.removeAll ie (t :: s.flat.ancestors t) with
        | mk h1 o' =>
          rw [hr, hf] at r2 r3
          rw [hr] at r1
          dsimp only at r1 r2 r3
          subst r2 r3
          cases o with
          | error e => exact ⟨r1, rfl, rfl⟩
          | ok u =>
            cases u
            dsimp only
            refine ⟨r1, ?_, rfl⟩
            rw [cells_flat]
            have : ∀ (l : List Nat) (h : Heap), (h.shiftDown l ie).trees = h.trees := by
              intro l
              unfold Heap.shiftDown
              induction l with
              | nil => intro h; rfl
              | cons a l ih =>
                intro h
                rw [List.foldl_cons, ih]
                split <;> rfl
            rw [← this (s1.flat.lst (s1.flat.root t)) s1.flat]
  · exact ⟨hs, rfl, rfl⟩

theorem remove_flat {s : SHeap} (hs : s.Inv) {V : Nat → Prop} (g : Heap.Fair s.flat V) {t : Nat} (ht : V t) (id : Nat) (pos : Int) :
    (s.remove t id pos).1.Inv ∧ (s.remove t id pos).1.flat = (s.flat.remove t id pos).1 ∧
    (s.remove t id pos).2 = (s.flat.remove t id pos).2 := by
  obtain ⟨p1, p2, p3⟩ := pop_flat hs g ht id pos
  unfold remove Heap.remove
  cases h1 : s.pop t id pos with
  | mk s1 o =>
    cases h2 : s.flat.pop t id pos with
    | mk h o' =>
      rw [h1] at p1
      rw [h1, h2] at p2 p3
      dsimp only at p1 p2 p3
      subst p2 p3
      cases o <;> exact ⟨p1, rfl, rfl⟩

theorem ofEvents_flat (evs : List (Nat × Nat)) : (ofEvents evs).Inv ∧ (ofEvents evs).flat = Heap.ofEvents evs := by
  obtain ⟨n1, n2, _⟩ := newTree_flat (s := ⟨evs.zipIdx.map fun x => ⟨x.2, x.1.1, x.1.2⟩, []⟩) (by intro o ho; cases ho) none
    (List.range evs.length)
  exact ⟨n1, n2⟩

end SHeap

end PyFLP
