import Verif.Rack
import Verif.Automation
/-!
# Slices of collections (`_models.py:100-117`), slots by index (`mixer.py:388-413`)
-/

namespace PyFLP

/-- The comprehension of `supports_slice` (`_models.py:112-115`) over the models of an iteration that ends with the exception
`e`, if any: `range(start, stop)` is evaluated for every model and raises if one of them is `None`; the step is ignored. -/
def sliceLoop {α : Type} (start stop : Option Int) (e : Option Exc) : List α → Int → Py (List α)
  | [], _ =>
    match e with
    | none => .ok []
    | some e => .error e
  | m :: l, idx =>
    match start, stop with
    | some a, some b =>
      match sliceLoop (some a) (some b) e l (idx + 1) with
      | .error x => .error x
      | .ok ms => .ok (if a ≤ idx ∧ idx < b then m :: ms else ms)
    | _, _ => .error .typeError

namespace World

/-- `project.arrangements[start:stop]` (`arrangement.py:434-450`). -/
def sliceArrangements (w : World) (t : Nat) (start stop : Option Int) : World × Py (List Nat) :=
  match w.iterArrangements t with
  | (w1, .error e) => (w1, .error e)
  | (w1, .ok us) => (w1, sliceLoop start stop none us 0)

/-- `project.mixer[start:stop]` (`mixer.py:582-598`). -/
def sliceInserts (w : World) (t : Nat) (v : FLVersion) (start stop : Option Int) : World × Py (List Nat) :=
  let (w1, us) := w.iterInserts t v
  (w1, sliceLoop start stop none us 0)

/-- Iterating over an insert (`mixer.py:410-413`); `params` tells whether the insert got `params` (`mixer.py:613-616`).
Simplification: all trees are made, also when `self._kw["params"]` raises for the first. -/
def iterSlots (w : World) (u : Nat) (params : Bool) : World × List Nat × Option Exc :=
  let (w1, us) := w.slotViews u
  if params then (w1, us, none) else (w1, [], some .keyError)

/-- `slot.name` (`mixer.py:349`). -/
def slotName (w : World) (u : Nat) : Option Value := w.prop u 203

/-- `insert[i]` (`mixer.py:388-403`). -/
def getSlot (w : World) (u : Nat) (params : Bool) (i : Subscript) : World × Py Nat :=
  match w.iterSlots u params with
  | (w1, us, none) => (w1, getItem i (us.map fun u => (u, w1.slotName u)) 0)
  | (w1, _, some e) => (w1, .error e)

/-- `insert[start:stop]` (`mixer.py:388`). -/
def sliceSlots (w : World) (u : Nat) (params : Bool) (start stop : Option Int) : World × Py (List Nat) :=
  let (w1, us, e) := w.iterSlots u params
  (w1, sliceLoop start stop e us 0)

/-- `project.channels[start:stop]` (`channel.py:1544`). -/
def sliceChannels (w : World) (t : Nat) (start stop : Option Int) : World × Py (List Chan) :=
  let (w1, cs, e) := w.iterRack t
  (w1, sliceLoop start stop e cs 0)

/-- `layer[start:stop]` (`channel.py:1343`) when the channels `cs` have been yielded. -/
def sliceChildren (w : World) (cs : List Chan) (u : Nat) (start stop : Option Int) : Py (List Chan) :=
  let (l, e) := w.iterLayer cs u
  sliceLoop start stop e l 0

/-- `automation[start:stop]` (`channel.py:1318`). -/
def slicePoints (w : World) (u : Nat) (start stop : Option Int) : Py (List Point) :=
  match w.points u with
  | .error e => .error e
  | .ok ps => sliceLoop start stop none ps 0

end World

end PyFLP
