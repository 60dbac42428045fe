import Verif.Threads
import Verif.Props.SideBySide
/-!
# A thread by itself

Run without interruption, the programs of `Threads` do what the functions of `Tree` and `Process` do.
-/

namespace PyFLP

namespace Prog

/-- Run to the end in a memory in which objects are numbered as they are made. -/
def exec {α : Type} : Prog α → Heap → (Nat → Event) → Heap × (Nat → Event) × α
  | ret x, h, st => (h, st, x)
  | getCell a k, h, st => (k (h.cell a)).exec h st
  | setR a x k, h, st => k.exec (h.setR a x) st
  | newCell c k, h, st => (k h.cells.length).exec { h with cells := h.cells ++ [c] } st
  | getTree t k, h, st => (k (h.tree t)).exec h st
  | setLst t l k, h, st => k.exec (h.setLst t l) st
  | addChild t c k, h, st => k.exec (h.addChild t c) st
  | newTree p r l k, h, st => (k h.trees.length).exec { h with trees := h.trees ++ [⟨p, r.getD h.trees.length, l, []⟩] } st
  | getEvent ref k, h, st => (k (st ref)).exec h st
  | setEvent ref e k, h, st => k.exec h (Mem.put st ref e)

theorem exec_bind {α β : Type} (p : Prog α) (f : α → Prog β) (h : Heap) (st : Nat → Event) :
    (p.bind f).exec h st = (f (p.exec h st).2.2).exec (p.exec h st).1 (p.exec h st).2.1 := by
  induction p generalizing h st with
  | ret x => rfl
  | getCell a k ih => exact ih _ _ _
  | setR a x k ih => exact ih _ _
  | newCell c k ih => exact ih _ _ _
  | getTree t k ih => exact ih _ _ _
  | setLst t l k ih => exact ih _ _
  | addChild t c k ih => exact ih _ _
  | newTree p r l k ih => exact ih _ _ _
  | getEvent ref k ih => exact ih _ _ _
  | setEvent ref e k ih => exact ih _ _

theorem exec_bind' {α β : Type} {p : Prog α} {h h' : Heap} {st st' : Nat → Event} {x : α}
    (e : p.exec h st = (h', st', x)) (f : α → Prog β) : (p.bind f).exec h st = (f x).exec h' st' := by
  rw [exec_bind, e]

/-- The `IndexedEvent`s of a list. -/
abbrev snap (h : Heap) (l : List Nat) : List (Nat × Cell) := l.map fun a => (a, h.cell a)

theorem exec_cells (l : List Nat) (h : Heap) (st : Nat → Event) : (cells l).exec h st = (h, st, snap h l) := by
  induction l with
  | nil => rfl
  | cons a l ih => exact exec_bind' ih _

theorem exec_events (l : List Nat) (h : Heap) (st : Nat → Event) :
    (events (snap h l)).exec h st = (h, st, l.map fun a => st (h.cell a).ref) := by
  induction l with
  | nil => rfl
  | cons a l ih => exact exec_bind' ih _

theorem exec_shiftUp (x : Int) (l : List Nat) (h : Heap) (st : Nat → Event) :
    (shiftUp x l).exec h st = (h.shiftUp l x, st, ()) := by
  induction l generalizing h with
  | nil => rfl
  | cons a l ih =>
    show (if x ≤ (h.cell a).r then setR a ((h.cell a).r + 1) (shiftUp x l) else shiftUp x l).exec h st =
      ((if x ≤ h.r a then h.setR a (h.r a + 1) else h).shiftUp l x, st, ())
    by_cases hc : x ≤ h.r a
    · rw [if_pos hc, if_pos (show x ≤ (h.cell a).r from hc)]; exact ih _
    · rw [if_neg hc, if_neg (show ¬ x ≤ (h.cell a).r from hc)]; exact ih _

theorem exec_shiftDown (ie : Nat) (l : List Nat) (h : Heap) (st : Nat → Event) :
    (shiftDown ie l).exec h st = (h.shiftDown l ie, st, ()) := by
  induction l generalizing h with
  | nil => rfl
  | cons a l ih =>
    show (if (h.cell ie).r ≤ (h.cell a).r then setR a ((h.cell a).r - 1) (shiftDown ie l) else shiftDown ie l).exec h st =
      ((if h.r ie ≤ h.r a then h.setR a (h.r a - 1) else h).shiftDown l ie, st, ())
    by_cases hc : h.r ie ≤ h.r a
    · rw [if_pos hc, if_pos (show (h.cell ie).r ≤ (h.cell a).r from hc)]; exact ih _
    · rw [if_neg hc, if_neg (show ¬ (h.cell ie).r ≤ (h.cell a).r from hc)]; exact ih _

/-- Parents are older than their children. -/
def Older (h : Heap) : Prop := ∀ t p, h.parent t = some p → p < t

theorem older_of {own : Nat → Nat} {h : Heap} {lt lc : Nat → Nat} (s : Heap.HSep own h lt lc) : Older h := by
  intro t p hp
  by_cases ht : t < h.trees.length
  · exact (s.parent t ht p hp).1
  · have e : h.tree t = default := by
      unfold Heap.tree
      rw [List.getD_eq_getElem?_getD, List.getElem?_eq_none (by omega)]
      rfl
    unfold Heap.parent at hp
    rw [e] at hp
    cases hp

theorem upTo_eq {h : Heap} (hd : Older h) : ∀ n m t, t ≤ n → t ≤ m → h.ancestorsUpTo n t = h.ancestorsUpTo m t := by
  intro n
  induction n with
  | zero =>
    intro m t h1 h2
    have : t = 0 := by omega
    subst this
    cases m with
    | zero => rfl
    | succ m =>
      unfold Heap.ancestorsUpTo
      cases hp : h.parent 0 with
      | none => rfl
      | some p => exact absurd (hd _ _ hp) (by omega)
  | succ n ih =>
    intro m t h1 h2
    cases m with
    | zero =>
      have : t = 0 := by omega
      subst this
      unfold Heap.ancestorsUpTo
      cases hp : h.parent 0 with
      | none => rfl
      | some p => exact absurd (hd _ _ hp) (by omega)
    | succ m =>
      unfold Heap.ancestorsUpTo
      cases hp : h.parent t with
      | none => rfl
      | some p =>
        have := hd _ _ hp
        dsimp only
        rw [ih m p (by omega) (by omega)]

theorem ancestors_cons {h : Heap} (hd : Older h) {t p : Nat} (hp : h.parent t = some p) : h.ancestors t = p :: h.ancestors p := by
  have h1 := hd _ _ hp
  unfold Heap.ancestors
  cases t with
  | zero => omega
  | succ t =>
    rw [Heap.ancestorsUpTo, hp]
    dsimp only
    rw [upTo_eq hd t p p (by omega) (Nat.le_refl _)]

theorem older_congr {h h' : Heap} (hd : Older h) (hp : ∀ t, h'.parent t = h.parent t) : Older h' := by
  intro t p e
  rw [hp] at e
  exact hd t p e

theorem cell_new (h : Heap) (c : Cell) : Heap.cell { h with cells := h.cells ++ [c] } h.cells.length = c := by
  unfold Heap.cell
  simp

theorem takeWhile_snap (h : Heap) (l : List Nat) (p : Int → Bool) :
    ((snap h l).takeWhile fun x => p x.2.r).length = (l.takeWhile fun a => p (h.r a)).length := by
  induction l with
  | nil => rfl
  | cons a l ih =>
    show (((a, h.cell a) :: snap h l).takeWhile fun x => p x.2.r).length = _
    rw [List.takeWhile_cons, List.takeWhile_cons]
    show (if p (h.r a) then _ else _ : List _).length = _
    split
    · rw [List.length_cons, List.length_cons, ih]
    · rfl

theorem exec_addUp (c : Cell) (n t : Nat) (h : Heap) (st : Nat → Event) (hd : Older h) (hn : t < n) :
    (addUp c n t).exec h st = (h.addAll c (t :: h.ancestors t), st, ()) := by
  induction n generalizing t h with
  | zero => omega
  | succ n ih =>
    rw [Heap.addAll]
    generalize hh1 : ({ h with cells := h.cells ++ [c] } : Heap) = h1
    generalize hh2 : h1.setLst t (h1.addSorted (h1.lst t) h.cells.length) = h2
    have hpar : ∀ u, h2.parent u = h.parent u := fun u => by rw [← hh2, Heap.parent_setLst, ← hh1]; rfl
    have hr : h1.r h.cells.length = c.r := by rw [← hh1]; unfold Heap.r; rw [cell_new]
    have e1 : (addUp c (n + 1) t).exec h st =
        (match h2.parent t with | none => ret () | some p => addUp c n p).exec h2 st := by
      rw [addUp]
      show (Prog.bind _ _).exec { h with cells := h.cells ++ [c] } st = _
      rw [hh1, exec_bind' (exec_cells _ _ _)]
      dsimp only
      rw [takeWhile_snap h1 (h1.tree t).lst fun x => decide (x ≤ c.r)]
      show (match ((h1.setLst t _).tree t).parent with | none => ret () | some p => addUp c n p).exec (h1.setLst t _) st = _
      have e2 : ∀ k, (h1.tree t).lst.take k ++ h.cells.length :: (h1.tree t).lst.drop k =
        (h1.lst t).take k ++ h.cells.length :: (h1.lst t).drop k := fun _ => rfl
      have e3 : h1.addSorted (h1.lst t) h.cells.length =
          (h1.lst t).take ((h1.lst t).takeWhile fun b => decide (h1.r b ≤ c.r)).length ++
            h.cells.length :: (h1.lst t).drop ((h1.lst t).takeWhile fun b => decide (h1.r b ≤ c.r)).length := by
        unfold Heap.addSorted
        rw [hr]
      rw [← hh2, e3]
      rfl
    rw [e1, hpar]
    cases hp : h.parent t with
    | none =>
      rw [Heap.ancestors_none hp]
      rfl
    | some p =>
      rw [ancestors_cons hd hp]
      dsimp only
      rw [ih p h2 (older_congr hd hpar) (by have := hd _ _ hp; omega), Heap.ancestors_congr hpar]

theorem exec_removeUp (ie n t : Nat) (h : Heap) (st : Nat → Event) (hd : Older h) (hn : t < n) :
    (removeUp ie n t).exec h st = ((h.removeAll ie (t :: h.ancestors t)).1, st, (h.removeAll ie (t :: h.ancestors t)).2) := by
  induction n generalizing t h with
  | zero => omega
  | succ n ih =>
    rw [Heap.removeAll]
    have e0 : (removeUp ie (n + 1) t).exec h st = (((fun cs : List (Nat × Cell) =>
        let k := (cs.takeWhile fun x => decide (x.2.r < (h.cell ie).r)).length
        match cs[k]? with
        | none => ret (.error .valueError)
        | some b =>
          if b.2.r = (h.cell ie).r then
            setLst t ((h.tree t).lst.eraseIdx k) <| getTree t fun o =>
              match o.parent with
              | none => ret (.ok ())
              | some p => removeUp ie n p
          else ret (.error .valueError)) (snap h (h.lst t)) : Prog (Py Unit))).exec h st := by
      rw [removeUp]
      exact exec_bind' (exec_cells _ _ _) _
    rw [e0]
    dsimp only
    rw [takeWhile_snap h (h.lst t) fun x => decide (x < (h.cell ie).r)]
    unfold Heap.removeSorted
    dsimp only
    have e1 : ((h.lst t).takeWhile fun a => decide (h.r a < (h.cell ie).r)) = ((h.lst t).takeWhile fun b => decide (h.r b < h.r ie)) := rfl
    rw [e1]
    generalize ((h.lst t).takeWhile fun b => decide (h.r b < h.r ie)).length = k
    rw [List.getElem?_map]
    cases hk : (h.lst t)[k]? with
    | none => rfl
    | some b =>
      dsimp only [Option.map_some]
      by_cases hc : h.r b = h.r ie
      · rw [if_pos hc, if_pos (show (h.cell b).r = (h.cell ie).r from hc)]
        dsimp only
        have hpar : ∀ u, (h.setLst t ((h.lst t).eraseIdx k)).parent u = h.parent u := fun u => Heap.parent_setLst ..
        show (match (h.setLst t ((h.lst t).eraseIdx k)).parent t with | none => ret (Except.ok ()) | some p => removeUp ie n p).exec
          (h.setLst t ((h.lst t).eraseIdx k)) st = _
        rw [hpar]
        cases hp : h.parent t with
        | none =>
          rw [Heap.ancestors_none hp]
          rfl
        | some p =>
          rw [ancestors_cons hd hp]
          dsimp only
          rw [ih p _ (older_congr hd hpar) (by have := hd _ _ hp; omega), Heap.ancestors_congr hpar]
      · rw [if_neg hc, if_neg (show ¬ (h.cell b).r = (h.cell ie).r from hc)]
        rfl

theorem parent_shift {next : Heap → Nat → Heap} (hn : ∀ h a u, (next h a).parent u = h.parent u) (l : List Nat) (h : Heap) (u : Nat) :
    (l.foldl next h).parent u = h.parent u := by
  induction l generalizing h with
  | nil => rfl
  | cons a l ih => rw [List.foldl_cons, ih, hn]

theorem parent_shiftUp (h : Heap) (l : List Nat) (x : Int) (u : Nat) : (h.shiftUp l x).parent u = h.parent u :=
  parent_shift (fun h a u => by split <;> rfl) l h u

theorem exec_insert (t : Nat) (pos : Int) (ref id : Nat) (h : Heap) (st : Nat → Event) (hd : Older h) :
    (insert t pos ref id).exec h st = ((h.insert t pos ref id).1, st, (h.insert t pos ref id).2) := by
  unfold insert Heap.insert
  have e : ((snap h (h.tree t).lst).map fun x => x.2.r) = (h.lst t).map h.r := by rw [List.map_map]; rfl
  have e2 : (if (h.tree t).lst.isEmpty then some 0 else
      pyIndex (sortBy (fun a b => decide (a ≤ b)) ((snap h (h.tree t).lst).map fun x => x.2.r)).eraseDups pos) =
      (if (h.lst t).isEmpty then some 0 else pyIndex (h.sortedIndexes t) pos) := by rw [e]; rfl
  rw [exec, exec_bind' (exec_cells _ _ _), e2]
  cases (if (h.lst t).isEmpty then some 0 else pyIndex (h.sortedIndexes t) pos) with
  | none => rfl
  | some x =>
    dsimp only
    show (Prog.bind _ _).exec h st = _
    rw [exec_bind' (exec_shiftUp _ _ _ _), exec_bind' (exec_addUp _ _ _ _ _ (older_congr hd (parent_shiftUp _ _ _)) (Nat.lt_succ_self t))]
    rfl

theorem exec_append (t ref id : Nat) (h : Heap) (st : Nat → Event) (hd : Older h) :
    (append t ref id).exec h st = ((h.append t ref id).1, st, (h.append t ref id).2) :=
  exec_insert t _ ref id h st hd

theorem filter_snap (h : Heap) (l : List Nat) (p : Cell → Bool) :
    ((snap h l).filter fun x => p x.2).map Prod.fst = l.filter fun a => p (h.cell a) := by
  rw [List.filter_map, List.map_map]
  simp [Function.comp_def]

theorem exec_pop (t id : Nat) (pos : Int) (h : Heap) (st : Nat → Event) (hd : Older h) :
    (pop t id pos).exec h st = ((h.pop t id pos).1, st, (h.pop t id pos).2) := by
  unfold pop Heap.pop
  show (Prog.bind _ _).exec h st = _
  rw [exec_bind' (exec_cells _ _ _)]
  have e1 : ((snap h (h.tree t).lst).any fun x => x.2.id == id) = (h.lst t).any fun a => (h.cell a).id == id := by
    rw [List.any_map]; rfl
  rw [e1, filter_snap h _ fun c => c.id == id]
  split
  · have e2 : pyIndex ((h.tree t).lst.filter fun a => (h.cell a).id == id) pos =
      pyIndex ((h.lst t).filter fun a => (h.cell a).id == id) pos := rfl
    rw [e2]
    cases pyIndex ((h.lst t).filter fun a => (h.cell a).id == id) pos with
    | none => rfl
    | some ie =>
      dsimp only
      rw [exec_bind' (exec_removeUp ie _ _ h st hd (Nat.lt_succ_self t))]
      cases hr : h.removeAll ie (t :: h.ancestors t) with
      | mk h1 r =>
        cases r with
        | error e => rfl
        | ok u =>
          dsimp only
          show (Prog.bind _ _).exec h1 st = _
          rw [exec_bind' (exec_shiftDown _ _ _ _)]
          show _ = (h1.shiftDown (h1.lst (h1.root t)) ie, st, Except.ok (h1.cell ie).ref)
          have hc : ∀ (l : List Nat) (g : Heap), ((g.shiftDown l ie).cell ie).ref = (g.cell ie).ref := by
            intro l
            induction l with
            | nil => intro g; rfl
            | cons a l ih =>
              intro g
              show ((Heap.shiftDown (if g.r ie ≤ g.r a then g.setR a (g.r a - 1) else g) l ie).cell ie).ref = _
              rw [ih]
              split
              · rw [Heap.cell_setR]
                split <;> rfl
              · rfl
          show (_, st, Except.ok (((h1.shiftDown (h1.lst (h1.root t)) ie)).cell ie).ref) = _
          rw [hc]
          rfl
  · rfl

theorem exec_top (n t : Nat) (h : Heap) (st : Nat → Event) (hd : Older h) (hn : t < n) :
    (top n t).exec h st = (h, st, ((h.ancestors t).getLast?).getD t) := by
  induction n generalizing t with
  | zero => omega
  | succ n ih =>
    rw [top, exec]
    have e : (h.tree t).parent = h.parent t := rfl
    rw [e]
    cases hp : h.parent t with
    | none =>
      rw [Heap.ancestors_none hp]
      rfl
    | some p =>
      dsimp only
      rw [ih p (by have := hd _ _ hp; omega), ancestors_cons hd hp]
      cases ha : h.ancestors p with
      | nil => rfl
      | cons b l =>
        rw [List.getLast?_cons_cons, List.getLast?_eq_some_getLast (List.cons_ne_nil b l)]
        rfl

theorem insertBy_snap (h : Heap) (a : Nat) (l : List Nat) :
    insertBy (fun x y : Nat × Cell => decide (x.2.r ≤ y.2.r)) (a, h.cell a) (snap h l) =
      snap h (insertBy (fun a b => decide (h.r a ≤ h.r b)) a l) := by
  induction l with
  | nil => rfl
  | cons b l ih =>
    show (if decide ((h.cell a).r ≤ (h.cell b).r) then _ else _) = _
    rw [insertBy]
    show (if decide (h.r a ≤ h.r b) then _ else _) = _
    split
    · rfl
    · show (b, h.cell b) :: _ = _
      rw [ih]
      rfl

theorem sort_snap (h : Heap) (l : List Nat) :
    (sortBy (fun x y : Nat × Cell => decide (x.2.r ≤ y.2.r)) (snap h l)).map Prod.fst = h.sortCells l := by
  have e : sortBy (fun x y : Nat × Cell => decide (x.2.r ≤ y.2.r)) (snap h l) = snap h (h.sortCells l) := by
    induction l with
    | nil => rfl
    | cons a l ih =>
      show insertBy _ (a, h.cell a) (sortBy _ (snap h l)) = _
      rw [ih, insertBy_snap]
      rfl
  rw [e, List.map_map]
  exact (List.map_congr_left fun a _ => rfl).trans (List.map_id _)

theorem addChild_push (h : Heap) (p c : Nat) (o : Tree) (hp : p < h.trees.length) :
    Heap.addChild { h with trees := h.trees ++ [o] } p c = { h.addChild p c with trees := (h.addChild p c).trees ++ [o] } := by
  unfold Heap.addChild
  dsimp only
  congr 1
  apply List.ext_getElem?
  intro i
  rw [List.getElem?_modify, List.getElem?_append, List.getElem?_append, List.length_modify, List.getElem?_modify]
  by_cases h1 : i < h.trees.length
  · rw [if_pos h1, if_pos h1]
  · rw [if_neg h1, if_neg h1]
    simp only [if_neg (show ¬ p = i by omega)]
    simp

theorem exec_makeTree_none (l : List Nat) (h : Heap) (st : Nat → Event) :
    (makeTree none l).exec h st = ((h.newTree none l).1, st, (h.newTree none l).2) := by
  unfold makeTree
  rw [exec_bind' (exec_cells _ _ _)]
  dsimp only
  rw [sort_snap]
  rfl

theorem exec_makeTree (p : Nat) (l : List Nat) (h : Heap) (st : Nat → Event) (hd : Older h) (hp : p < h.trees.length) :
    (makeTree (some p) l).exec h st = ((h.newTree (some p) l).1, st, (h.newTree (some p) l).2) := by
  unfold makeTree
  rw [exec_bind' (exec_cells _ _ _)]
  dsimp only
  rw [sort_snap, exec_bind' (exec_top _ _ _ _ hd (Nat.lt_succ_self p)), exec, exec, exec, exec, addChild_push _ _ _ _ hp]
  unfold Heap.newTree
  dsimp only
  generalize (h.ancestors p).getLast?.getD p = tp
  have e : (if (h.tree tp).lst.isEmpty = true then none else some tp).getD h.trees.length =
    (if (h.lst tp).isEmpty = true then h.trees.length else tp) := by
    show (if (h.lst tp).isEmpty = true then none else some tp).getD h.trees.length = _
    split <;> rfl
  rw [e]

theorem older_newTree {h : Heap} (hd : Older h) {t : Nat} (ht : t < h.trees.length) (l : List Nat) :
    Older (h.newTree (some t) l).1 := by
  intro u p hp
  unfold Heap.newTree at hp
  dsimp only at hp
  unfold Heap.parent Heap.tree at hp
  rw [List.getD_eq_getElem?_getD] at hp
  have hlen : (h.addChild t h.trees.length).trees.length = h.trees.length := by simp [Heap.addChild]
  rw [List.getElem?_append] at hp
  split at hp
  · next h1 =>
    have : (h.addChild t h.trees.length).parent u = some p := by
      unfold Heap.parent Heap.tree
      rw [List.getD_eq_getElem?_getD]
      exact hp
    rw [Heap.parent_addChild] at this
    exact hd u p this
  · next h1 =>
    rw [hlen] at hp h1
    cases hi : u - h.trees.length with
    | zero =>
      rw [hi] at hp
      have e : some t = some p := hp
      injection e with e
      omega
    | succ i =>
      rw [hi] at hp
      cases hp

theorem exec_makeViews (t : Nat) (els : List (List Nat)) (h : Heap) (st : Nat → Event) (hd : Older h) (ht : t < h.trees.length) :
    (makeViews t els).exec h st = ((h.yieldViews t els).1, st, (h.yieldViews t els).2) := by
  induction els generalizing h with
  | nil => rfl
  | cons el els ih =>
    rw [makeViews, exec_bind' (exec_makeTree _ _ _ _ hd ht), exec]
    have hlen : (h.newTree (some t) el).1.trees.length = h.trees.length + 1 := by
      unfold Heap.newTree
      simp [Heap.addChild]
    rw [exec_bind' (ih _ (older_congr (older_newTree hd ht el) fun u => Heap.parent_addChild ..) (by
      simp [Heap.addChild]; omega))]
    rfl

/-! ### Choosing by place -/

theorem picks_snap (h : Heap) (l : List Nat) (els : List (List Nat)) :
    picks (snap h l) els = els.map (List.map fun i => ((snap h l).getD i default).1) := rfl

theorem range_snap (h : Heap) (l : List Nat) : (List.range (snap h l).length).map (fun i => ((snap h l).getD i default).1) = l := by
  apply List.ext_getElem
  · simp
  · intro i h1 h2
    simp [List.getD_eq_getElem?_getD, h2]

theorem at_snap {h : Heap} {l : List Nat} {i : Nat} (hi : i ∈ List.range (snap h l).length) :
    (snap h l).getD i default = ((snap h l).getD i default |>.1, h.cell ((snap h l).getD i default).1) := by
  have h2 : i < l.length := by simpa using hi
  simp [List.getD_eq_getElem?_getD, h2]

theorem at_events {h : Heap} {st : Nat → Event} {l : List Nat} {i : Nat} (hi : i ∈ List.range (snap h l).length) :
    (l.map fun a => st (h.cell a).ref).getD i default = st (h.cell ((snap h l).getD i default).1).ref := by
  have h2 : i < l.length := by simpa using hi
  simp [List.getD_eq_getElem?_getD, h2]

theorem exec_divide (t sep : Nat) (ids : List Nat) (h : Heap) (st : Nat → Event) (hd : Older h) (ht : t < h.trees.length) :
    (divide t sep ids).exec h st = ((h.divide t sep ids).1, st, (h.divide t sep ids).2) := by
  unfold divide
  rw [exec, exec_bind' (exec_cells _ _ _), exec_makeViews _ _ _ _ hd ht]
  have e : picks (snap h (h.tree t).lst) (divideLoop (fun i => ((snap h (h.tree t).lst).getD i default).2.id) sep ids
      (List.range (snap h (h.tree t).lst).length) [] true) = divideLoop h.idOf sep ids (h.lst t) [] true := by
    have := divideLoop_sim (g := fun i => ((snap h (h.tree t).lst).getD i default).1) (idOf := h.idOf)
      (idOf' := fun i => ((snap h (h.tree t).lst).getD i default).2.id) sep ids (List.range (snap h (h.tree t).lst).length) [] true
      (fun i hi => by rw [at_snap hi]; rfl)
    rw [range_snap] at this
    exact this.symm
  rw [e]
  rfl

theorem exec_group (t : Nat) (ids : List Nat) (h : Heap) (st : Nat → Event) (hd : Older h) (ht : t < h.trees.length) :
    (group t ids).exec h st = ((h.group t ids).1, st, (h.group t ids).2) := by
  unfold group
  rw [exec, exec_bind' (exec_cells _ _ _), exec_makeViews _ _ _ _ hd ht]
  have e : picks (snap h (h.tree t).lst) (groupLists (fun i => ((snap h (h.tree t).lst).getD i default).2.id)
      (List.range (snap h (h.tree t).lst).length) ids) = groupLists h.idOf (h.lst t) ids := by
    have := groupLists_sim (g := fun i => ((snap h (h.tree t).lst).getD i default).1) (idOf := h.idOf)
      (idOf' := fun i => ((snap h (h.tree t).lst).getD i default).2.id) (List.range (snap h (h.tree t).lst).length) ids
      (fun i hi => by rw [at_snap hi]; rfl)
    rw [range_snap] at this
    exact this.symm
  rw [e]
  rfl

theorem exec_separate (t id : Nat) (h : Heap) (st : Nat → Event) (hd : Older h) (ht : t < h.trees.length) :
    (separate t id).exec h st = ((h.separate t id).1, st, (h.separate t id).2) := by
  unfold separate
  rw [exec, exec_bind' (exec_cells _ _ _), exec_makeViews _ _ _ _ hd ht]
  have e : picks (snap h (h.tree t).lst) (((List.range (snap h (h.tree t).lst).length).filter
      fun i => ((snap h (h.tree t).lst).getD i default).2.id = id).map fun i => [i]) =
      ((h.lst t).filter fun a => h.idOf a = id).map fun a => [a] := by
    have := Heap.filter_sim (g := fun i => ((snap h (h.tree t).lst).getD i default).1) (p := fun a => decide (h.idOf a = id))
      (p' := fun i => decide (((snap h (h.tree t).lst).getD i default).2.id = id)) (l := List.range (snap h (h.tree t).lst).length)
      (fun i hi => by rw [at_snap hi]; rfl)
    rw [range_snap] at this
    show _ = (((h.tree t).lst).filter fun a => h.idOf a = id).map fun a => [a]
    rw [this]
    simp [picks]
  rw [e]
  rfl

theorem exec_subtree (t : Nat) (select : Event → Bool) (h : Heap) (st : Nat → Event) (hd : Older h) (ht : t < h.trees.length) :
    (subtree t select).exec h st =
      ((h.subtree t fun a => select (st (h.cell a).ref)).1, st, [(h.subtree t fun a => select (st (h.cell a).ref)).2]) := by
  unfold subtree
  rw [exec, exec_bind' (exec_cells _ _ _), exec_bind' (exec_events _ _ _), exec_makeViews _ _ _ _ hd ht]
  have e : picks (snap h (h.tree t).lst) [(List.range (snap h (h.tree t).lst).length).filter
      fun i => select (((h.tree t).lst.map fun a => st (h.cell a).ref).getD i default)] =
      [(h.lst t).filter fun a => select (st (h.cell a).ref)] := by
    have := Heap.filter_sim (g := fun i => ((snap h (h.tree t).lst).getD i default).1) (p := fun a => select (st (h.cell a).ref))
      (p' := fun i => select (((h.tree t).lst.map fun a => st (h.cell a).ref).getD i default))
      (l := List.range (snap h (h.tree t).lst).length) (fun i hi => by rw [at_events hi])
    rw [range_snap] at this
    show _ = [((h.tree t).lst).filter fun a => select (st (h.cell a).ref)]
    rw [this]
    rfl
  rw [e]
  rfl

theorem exec_subtrees (t : Nat) (select : List Event → Option Bool) (rep : Int) (h : Heap) (st : Nat → Event) (hd : Older h)
    (ht : t < h.trees.length) :
    (subtrees t select rep).exec h st =
      ((h.subtrees t (fun seen a => (select (seen ++ [st (h.cell a).ref]), seen ++ [st (h.cell a).ref])) [] rep).1, st,
       (h.subtrees t (fun seen a => (select (seen ++ [st (h.cell a).ref]), seen ++ [st (h.cell a).ref])) [] rep).2) := by
  unfold subtrees
  rw [exec, exec_bind' (exec_cells _ _ _), exec_bind' (exec_events _ _ _), exec_makeViews _ _ _ _ hd ht]
  have e : picks (snap h (h.tree t).lst) (subtreesLoop (runSelect (fun seen i =>
      (select (seen ++ [((h.tree t).lst.map fun a => st (h.cell a).ref).getD i default]),
        seen ++ [((h.tree t).lst.map fun a => st (h.cell a).ref).getD i default])) [] (List.range (snap h (h.tree t).lst).length)) [] rep) =
      subtreesLoop (runSelect (fun seen a => (select (seen ++ [st (h.cell a).ref]), seen ++ [st (h.cell a).ref])) [] (h.lst t)) [] rep := by
    have := runSelect_sim (g := fun i => ((snap h (h.tree t).lst).getD i default).1)
      (select := fun (seen : List Event) a => (select (seen ++ [st (h.cell a).ref]), seen ++ [st (h.cell a).ref]))
      (select' := fun seen i => (select (seen ++ [((h.tree t).lst.map fun a => st (h.cell a).ref).getD i default]),
        seen ++ [((h.tree t).lst.map fun a => st (h.cell a).ref).getD i default]))
      (List.range (snap h (h.tree t).lst).length) [] (fun i hi seen => by rw [at_events hi])
    rw [range_snap] at this
    show _ = subtreesLoop (runSelect _ [] ((h.tree t).lst)) [] rep
    rw [this]
    exact (subtreesLoop_sim _ [] rep).symm
  rw [e]
  rfl

end Prog

end PyFLP
