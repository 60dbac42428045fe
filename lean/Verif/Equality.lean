import Verif.Rack
/-!
# Comparing trees and models (`_events.py:387-394, 439-444`, `_models.py:78-82`)
-/

namespace PyFLP

/-- `EventTree.__eq__` (`_events.py:439-444`): the lists of `IndexedEvent`s are compared, element by element.  `e` has
`compare=False` (`_events.py:387-394`), so that two `IndexedEvent`s are equal if their root indexes are.  The trees may
belong to different projects. -/
def World.eqTree (w : World) (t : Nat) (w' : World) (t' : Nat) : Bool :=
  (w.heap.lst t).map (fun a => (w.heap.cell a).r) == (w'.heap.lst t').map (fun a => (w'.heap.cell a).r)

/-- `isinstance(x, cls)` for channels `x` of class `sub` (`channel.py:1307, 1335, 1381, 1427, 1450`); the common base class of
samplers and instruments, `_SamplerInstrument`, has no instances. -/
def ChClass.isa (sub cls : ChClass) : Bool := sub = cls || cls = .channel

/-- `EventModel.__eq__` (`_models.py:78-82`) for channels. -/
def World.chanDunderEq (w : World) (c : Chan) (w' : World) (c' : Chan) : Py Bool :=
  if c'.cls.isa c.cls then .ok (w'.eqTree c'.tree w c.tree) else .error .typeError

/-- `c == c'` for channels: Python asks the right-hand side first if its class is a proper subclass of the class of the left. -/
def World.chanEq (w : World) (c : Chan) (w' : World) (c' : Chan) : Py Bool :=
  if c.cls ≠ c'.cls ∧ c'.cls.isa c.cls = true then w'.chanDunderEq c' w c else w.chanDunderEq c w' c'

/-- `c in rack` for the channels the rack yields, and the exception it ends with.  Every iteration makes new objects, so that
`c` is none of them. -/
def World.chanIn (w : World) (c : Chan) : List Chan → Option Exc → Py Bool
  | [], none => .ok false
  | [], some e => .error e
  | d :: ds, e =>
    match w.chanEq d w c with
    | .error x => .error x
    | .ok true => .ok true
    | .ok false => w.chanIn c ds e

/-- `c in project.channels` (`channel.py:1560-1589`; there is no `__contains__`). -/
def World.rackHas (w : World) (t : Nat) (c : Chan) : World × Py Bool :=
  let (w', cs, e) := w.iterRack t
  (w', w'.chanIn c cs e)

end PyFLP
