import Verif.EventEq
import Verif.Notes
/-!
# List events as lists (`_events.py:349-378`)

`ListEventBase` is a `collections.UserList` whose `data` is the value of the event, so that all list methods change the
value.  Records that are added are containers of their own.

Not modelled: slices (reading one, `+`, `*` and `copy()` call the class with one argument and raise TypeError; assigning to
one is like a list), `sort` (containers have no order: TypeError, unless a key is given).
-/

namespace PyFLP

/-- The methods that change a list (`collections.UserList`). -/
inductive LOp
  /-- `event.append(record)` -/
  | append (r : Rec)
  /-- `event.insert(i, record)` -/
  | insert (i : Int) (r : Rec)
  /-- `event.pop(i)`; `event.pop()` is `event.pop(-1)` -/
  | pop (i : Int)
  /-- `del event[i]` -/
  | del (i : Int)
  /-- `event[i] = record` -/
  | put (i : Int) (r : Rec)
  /-- `event.clear()` -/
  | clear
  /-- `event.reverse()` -/
  | reverse
  /-- `event.extend(records)`, `event += records` -/
  | extend (rs : List Rec)
  /-- `event *= n` -/
  | times (n : Int)
  /-- `event.remove(record)` -/
  | remove (r : Rec)

/-- The index of a list of length `n` that `i` stands for; negative ones count from the end. -/
def listAt (n : Nat) (i : Int) : Option Nat :=
  let j := if i < 0 then i + n else i
  if 0 ≤ j ∧ j < n then some j.toNat else none

/-- The place `list.insert` uses: the index is cut to the list. -/
def insertAt (n : Nat) (i : Int) : Nat := if i < 0 then (i + n).toNat else min i.toNat n

namespace ListObj

/-- The methods of `collections.UserList`, which do the same with `data` (`_events.py:349, 378`).  `pop` gives the record. -/
def run (s : ListObj) : LOp → ListObj × Py (Option Rec)
  | .append r => (⟨s.objs ++ [r], s.list ++ [s.objs.length]⟩, .ok none)
  | .insert i r =>
    let k := insertAt s.list.length i
    (⟨s.objs ++ [r], s.list.take k ++ s.objs.length :: s.list.drop k⟩, .ok none)
  | .pop i =>
    match listAt s.list.length i with
    | none => (s, .error .indexError)
    | some k => (⟨s.objs, s.list.eraseIdx k⟩, .ok s.value[k]?)
  | .del i =>
    match listAt s.list.length i with
    | none => (s, .error .indexError)
    | some k => (⟨s.objs, s.list.eraseIdx k⟩, .ok none)
  | .put i r =>
    match listAt s.list.length i with
    | none => (⟨s.objs ++ [r], s.list⟩, .error .indexError)
    | some k => (⟨s.objs ++ [r], s.list.set k s.objs.length⟩, .ok none)
  | .clear => (⟨s.objs, []⟩, .ok none)
  | .reverse => (⟨s.objs, s.list.reverse⟩, .ok none)
  | .extend rs => (⟨s.objs ++ rs, s.list ++ (List.range rs.length).map (s.objs.length + ·)⟩, .ok none)
  | .times n => (⟨s.objs, (List.replicate n.toNat s.list).flatten⟩, .ok none)
  | .remove r =>
    match s.value.findIdx? fun r' => recEq r' r with
    | none => (s, .error .valueError)
    | some k => (⟨s.objs, s.list.eraseIdx k⟩, .ok none)

/-- `event.index(record)`; `ValueError` without one. -/
def index (s : ListObj) (r : Rec) : Py Nat :=
  match s.value.findIdx? fun r' => recEq r' r with
  | none => .error .valueError
  | some k => .ok k

/-- `record in event` -/
def has (s : ListObj) (r : Rec) : Bool := s.value.any fun r' => recEq r' r

/-- `event.count(record)` -/
def count (s : ListObj) (r : Rec) : Nat := s.value.countP fun r' => recEq r' r

end ListObj

end PyFLP
