import Verif.Tree
/-!
# Questions to event trees (`_events.py:435-480`, `595-602`)
-/

namespace PyFLP

namespace Heap

/-- `EventTree.__contains__(id)` (`_events.py:435-437`). -/
def has (h : Heap) (t id : Nat) : Bool := (h.lst t).any fun a => h.idOf a == id

/-- `EventTree.__len__` (`_events.py:454-455`). -/
def size (h : Heap) (t : Nat) : Nat := (h.lst t).length

/-- `EventTree.count(id)` (`_events.py:475-477`; `_get_ie` is `_events.py:460-461`). -/
def countId (h : Heap) (t id : Nat) : Nat := ((h.lst t).filter fun a => decide (h.idOf a ∈ [id])).length

/-- `EventTree.ids` (`_events.py:595-597`): a set, here the list of its elements in some order. -/
def idSet (h : Heap) (t : Nat) : List Nat := ((h.lst t).map h.idOf).eraseDups

/-- The numbers in `EventTree.__repr__` (`_events.py:457-458`): ids and events. -/
def reprNumbers (h : Heap) (t : Nat) : Nat × Nat := ((h.idSet t).length, h.size t)

/-- The loop of `EventTree.__iadd__` (`_events.py:446-449`). -/
def extend (h : Heap) (t : Nat) : List (Nat × Nat) → Heap × Py Unit
  | [] => (h, .ok ())
  | e :: es =>
    match h.append t e.1 e.2 with
    | (h1, .error x) => (h1, .error x)
    | (h1, .ok ()) => h1.extend t es

/-- `tree += event` (`_events.py:446-449`): the method is called with the one event on the right and the name is bound to what it
returns, which is `None`; if the method raises, the name stays as it is.  The result is the tree the name is bound to afterwards. -/
def iadd (h : Heap) (t : Nat) (e : Nat × Nat) : Heap × Py (Option Nat) :=
  match h.extend t [e] with
  | (h1, .error x) => (h1, .error x)
  | (h1, .ok ()) => (h1, .ok none)

end Heap

end PyFLP
