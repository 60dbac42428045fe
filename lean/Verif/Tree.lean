import Verif.Py
/-!
# `EventTree` (`_events.py:387-601`)

Views of a project share `IndexedEvent` objects, and their positions `r` are
changed in place, so the model is a heap: `IndexedEvent`s are numbered cells,
trees are numbered objects holding lists of cell numbers.

`SortedList` (package `sortedcontainers`) keeps its values in a list and finds
places by binary search on `r` (the only compared field of `IndexedEvent`).  The
model searches from the left; both agree on lists sorted by `r`: `SortedList.lean`
has the library's algorithm and `Props/Sizes.lean` the proof.  Every theorem
that says something positive is about sorted lists, and the counterexamples meet
sorted lists only.
-/

namespace PyFLP

/-- Insertion before the first value that is not smaller. -/
def insertBy {α : Type} (le : α → α → Bool) (a : α) : List α → List α
  | [] => [a]
  | b :: l => if le a b then a :: b :: l else b :: insertBy le a l

/-- `sorted(values)`: a stable sort. -/
def sortBy {α : Type} (le : α → α → Bool) : List α → List α
  | [] => []
  | a :: l => insertBy le a (sortBy le l)

/-- `IndexedEvent` (`_events.py:387-393`): position `r` (compared) and event `e`
(not compared).  The event is represented by the identity `ref` of the object and
its `id`, which never changes. -/
structure Cell where
  r : Int
  ref : Nat
  id : Nat
  deriving DecidableEq, Repr, Inhabited

/-- An `EventTree` object (`_events.py:407-433`); `lst` holds cell numbers,
`parent`, `root` and `children` hold tree numbers. -/
structure Tree where
  parent : Option Nat
  root : Nat
  lst : List Nat
  children : List Nat
  deriving DecidableEq, Repr, Inhabited

/-- All `IndexedEvent`s and `EventTree`s. -/
structure Heap where
  cells : List Cell
  trees : List Tree
  deriving DecidableEq, Repr, Inhabited

namespace Heap

/-- The `IndexedEvent` with this number. -/
def cell (h : Heap) (a : Nat) : Cell := h.cells.getD a default
/-- The `EventTree` with this number. -/
def tree (h : Heap) (t : Nat) : Tree := h.trees.getD t default
/-- `ie.r`. -/
def r (h : Heap) (a : Nat) : Int := (h.cell a).r
/-- `et.lst`. -/
def lst (h : Heap) (t : Nat) : List Nat := (h.tree t).lst
/-- `et.parent`. -/
def parent (h : Heap) (t : Nat) : Option Nat := (h.tree t).parent
/-- `et.root`. -/
def root (h : Heap) (t : Nat) : Nat := (h.tree t).root

/-- `ie.r = x`. -/
def setR (h : Heap) (a : Nat) (x : Int) : Heap :=
  { h with cells := h.cells.modify a fun c => { c with r := x } }

/-- In-place change of `et.lst`. -/
def setLst (h : Heap) (t : Nat) (l : List Nat) : Heap :=
  { h with trees := h.trees.modify t fun o => { o with lst := l } }

/-- `et.children.append(c)`. -/
def addChild (h : Heap) (t c : Nat) : Heap :=
  { h with trees := h.trees.modify t fun o => { o with children := o.children ++ [c] } }

/-- `SortedList(values)`: a stable sort by `r`. -/
def sortCells (h : Heap) (l : List Nat) : List Nat :=
  sortBy (fun a b => decide (h.r a ≤ h.r b)) l

/-- `SortedList.add(ie)`: after the values that are not greater (bisect_right). -/
def addSorted (h : Heap) (l : List Nat) (a : Nat) : List Nat :=
  let k := (l.takeWhile fun b => decide (h.r b ≤ h.r a)).length
  l.take k ++ a :: l.drop k

/-- `SortedList.remove(ie)`: removes the first value that compares equal
(bisect_left), i.e. has the same `r`; `ValueError` if there is none. -/
def removeSorted (h : Heap) (l : List Nat) (a : Nat) : Py (List Nat) :=
  let k := (l.takeWhile fun b => decide (h.r b < h.r a)).length
  match l[k]? with
  | none => .error .valueError
  | some b => if h.r b = h.r a then .ok (l.eraseIdx k) else .error .valueError

/-- The trees visited by `_recursive` after `self` (`_events.py:463-469`), at most
`n` of them. -/
def ancestorsUpTo (h : Heap) : Nat → Nat → List Nat
  | 0, _ => []
  | n + 1, t =>
    match h.parent t with
    | none => []
    | some p => p :: ancestorsUpTo h n p

/-- The trees visited by `_recursive` after `self` (`_events.py:463-469`): parent,
grandparent, ...  A parent exists before its children, so its number is smaller and
there are at most `t` of them. -/
def ancestors (h : Heap) (t : Nat) : List Nat := ancestorsUpTo h t t

/-- `EventTree.__init__` (`_events.py:418-433`).  `parent or self` is the topmost
ancestor unless that one is empty (`__len__` is 0, `_events.py:454-455`) or missing. -/
def newTree (h : Heap) (par : Option Nat) (init : List Nat) : Heap × Nat :=
  let t := h.trees.length
  let l := h.sortCells init
  let h1 := match par with
    | none => h
    | some p => h.addChild p t
  let root := match par with
    | none => t
    | some p =>
      let top := ((h.ancestors p).getLast?).getD p
      if (h.lst top).isEmpty then t else top
  ({ h1 with trees := h1.trees ++ [⟨par, root, l, []⟩] }, t)

/-- `sorted(self.indexes)` (`_events.py:519`, `598-601`): `indexes` is a set. -/
def sortedIndexes (h : Heap) (t : Nat) : List Int :=
  (sortBy (fun a b => decide (a ≤ b)) ((h.lst t).map h.r)).eraseDups

/-- `for ie in self.root.lst: if ie.r >= rootidx: ie.r += 1` (`_events.py:523-525`). -/
def shiftUp (h : Heap) (l : List Nat) (x : Int) : Heap :=
  l.foldl (fun h a => if x ≤ h.r a then h.setR a (h.r a + 1) else h) h

/-- `for root_ie in self.root.lst: if root_ie.r >= ie.r: root_ie.r -= 1`
(`_events.py:538-540`); `ie.r` is read again in every round. -/
def shiftDown (h : Heap) (l : List Nat) (ie : Nat) : Heap :=
  l.foldl (fun h a => if h.r ie ≤ h.r a then h.setR a (h.r a - 1) else h) h

/-- `_recursive(lambda et: et.lst.add(IndexedEvent(rootidx, e)))`
(`_events.py:527`): a new `IndexedEvent` for every tree. -/
def addAll (h : Heap) (c : Cell) : List Nat → Heap
  | [] => h
  | t :: ts =>
    let a := h.cells.length
    let h1 : Heap := { h with cells := h.cells ++ [c] }
    addAll (h1.setLst t (h1.addSorted (h1.lst t) a)) c ts

/-- `_recursive(lambda et: et.lst.remove(ie))` (`_events.py:535`). -/
def removeAll (h : Heap) (a : Nat) : List Nat → Heap × Py Unit
  | [] => (h, .ok ())
  | t :: ts =>
    match h.removeSorted (h.lst t) a with
    | .error e => (h, .error e)
    | .ok l => removeAll (h.setLst t l) a ts

/-- `EventTree.insert(pos, e)` (`_events.py:517-527`). -/
def insert (h : Heap) (t : Nat) (pos : Int) (ref id : Nat) : Heap × Py Unit :=
  match (if (h.lst t).isEmpty then some 0 else pyIndex (h.sortedIndexes t) pos) with
  | none => (h, .error .indexError)
  | some x =>
    let h1 := h.shiftUp (h.lst (h.root t)) x
    (h1.addAll ⟨x, ref, id⟩ (t :: h1.ancestors t), .ok ())

/-- `EventTree.append(e)` (`_events.py:471-473`). -/
def append (h : Heap) (t : Nat) (ref id : Nat) : Heap × Py Unit :=
  h.insert t (h.lst t).length ref id

/-- `EventTree.pop(id, pos)` (`_events.py:529-542`); the result is the event. -/
def pop (h : Heap) (t : Nat) (id : Nat) (pos : Int) : Heap × Py Nat :=
  if (h.lst t).any (fun a => (h.cell a).id == id) then
    match pyIndex ((h.lst t).filter fun a => (h.cell a).id == id) pos with
    | none => (h, .error .indexError)
    | some ie =>
      match h.removeAll ie (t :: h.ancestors t) with
      | (h1, .error e) => (h1, .error e)
      | (h1, .ok ()) => (h1.shiftDown (h1.lst (h1.root t)) ie, .ok (h1.cell ie).ref)
  else (h, .error .keyError)

/-- `EventTree.remove(id, pos)` (`_events.py:544-546`). -/
def remove (h : Heap) (t : Nat) (id : Nat) (pos : Int) : Heap × Py Unit :=
  match h.pop t id pos with
  | (h', .ok _) => (h', .ok ())
  | (h', .error e) => (h', .error e)

end Heap

/-! ### View-producing methods

The generators are modelled as if the caller collects all views first: each
yields its views without looking at anything the caller could change by using
an earlier view, except the iterated list itself. -/

/-- The loop of `EventTree.divide` (`_events.py:480-494`): `ids` of the cells, the
list `el` collected so far and the flag `first`. -/
def divideLoop (idOf : Nat → Nat) (sep : Nat) (ids : List Nat) :
    List Nat → List Nat → Bool → List (List Nat)
  | [], el, _ => [el]
  | a :: l, el, first =>
    let (out, el, first) :=
      if idOf a = sep then (if first then ([], el, false) else ([el], [], first)) else ([], el, first)
    out ++ divideLoop idOf sep ids l (if idOf a ∈ ids then el ++ [a] else el) first

/-- The answers of a `select` callback, called for one event after the other; it
may keep a state between the calls (`Arrangements.__iter__` does). -/
def runSelect {σ : Type} (select : σ → Nat → Option Bool × σ) : σ → List Nat → List (Nat × Option Bool)
  | _, [] => []
  | s, a :: l => (a, (select s a).1) :: runSelect select (select s a).2 l

/-- The loop of `EventTree.subtrees(select, repeat)` (`_events.py:569-592`) over the
events and the answers (`True`, `False` or `None`) of `select`. -/
def subtreesLoop : List (Nat × Option Bool) → List Nat → Int → List (List Nat)
  | [], _, _ => []
  | (a, ans) :: l, el, rep =>
    if rep = 0 then []
    else match ans with
      | some false => el :: subtreesLoop l [a] (rep - 1)
      | some true => subtreesLoop l (el ++ [a]) rep
      | none => subtreesLoop l el rep

/-- `zip_longest(*lists)` with the missing values filtered out
(`_events.py:512-515`). -/
def zipLongest : List (List Nat) → Nat → List (List Nat)
  | _, 0 => []
  | ls, n + 1 => ls.filterMap List.head? :: zipLongest (ls.map List.tail) n

/-- `EventTree.group(*ids)` (`_events.py:512-515`), before sorting the views. -/
def groupLists (idOf : Nat → Nat) (l : List Nat) (ids : List Nat) : List (List Nat) :=
  let ls := ids.map fun i => l.filter fun a => idOf a = i
  zipLongest ls ((ls.map List.length).max?.getD 0)

namespace Heap

/-- `id` of the event of a cell. -/
def idOf (h : Heap) (a : Nat) : Nat := (h.cell a).id

/-- Views handed out by a `yields_child` generator (`_events.py:396-404`): the
constructor registers the view with its parent, the decorator does it again. -/
def yieldViews (h : Heap) (t : Nat) : List (List Nat) → Heap × List Nat
  | [] => (h, [])
  | el :: els =>
    let (h1, v) := h.newTree (some t) el
    let (h2, vs) := yieldViews (h1.addChild t v) t els
    (h2, v :: vs)

/-- `EventTree.divide(separator, *ids)` (`_events.py:480-494`). -/
def divide (h : Heap) (t sep : Nat) (ids : List Nat) : Heap × List Nat :=
  h.yieldViews t (divideLoop h.idOf sep ids (h.lst t) [] true)

/-- `EventTree.subtrees(select, repeat)` (`_events.py:569-592`). -/
def subtrees {σ : Type} (h : Heap) (t : Nat) (select : σ → Nat → Option Bool × σ) (s : σ) (rep : Int) :
    Heap × List Nat :=
  h.yieldViews t (subtreesLoop (runSelect select s (h.lst t)) [] rep)

/-- `EventTree.group(*ids)` (`_events.py:512-515`). -/
def group (h : Heap) (t : Nat) (ids : List Nat) : Heap × List Nat :=
  h.yieldViews t (groupLists h.idOf (h.lst t) ids)

/-- `EventTree.separate(id)` (`_events.py:549-551`). -/
def separate (h : Heap) (t id : Nat) : Heap × List Nat :=
  h.yieldViews t (((h.lst t).filter fun a => h.idOf a = id).map fun a => [a])

/-- `EventTree.subtree(select)` (`_events.py:553-567`): the view is registered by
the constructor and once more by `self.children.append(obj)`. -/
def subtree (h : Heap) (t : Nat) (select : Nat → Bool) : Heap × Nat :=
  let (h1, v) := h.newTree (some t) ((h.lst t).filter select)
  (h1.addChild t v, v)

/-- `EventTree.first(id)` (`_events.py:496-505`). -/
def first (h : Heap) (t id : Nat) : Py Nat :=
  match (h.lst t).find? fun a => h.idOf a = id with
  | some a => .ok (h.cell a).ref
  | none => .error .keyError

/-- `EventTree.get(*ids)` (`_events.py:507-509`). -/
def get (h : Heap) (t : Nat) (ids : List Nat) : List Nat :=
  ((h.lst t).filter fun a => h.idOf a ∈ ids).map fun a => (h.cell a).ref

/-- The event tree `parse` builds (`__init__.py:168-173`). -/
def ofEvents (evs : List (Nat × Nat)) : Heap :=
  let cells := evs.zipIdx.map fun x => ⟨x.2, x.1.1, x.1.2⟩
  (newTree ⟨cells, []⟩ none (List.range evs.length)).1

end Heap

end PyFLP
