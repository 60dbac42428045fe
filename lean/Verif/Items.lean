import Verif.Descriptors
/-!
# Items of list events (`_models.py:45-70`)

Notes, controllers, playlist items and automation points are containers that are
shared between the list of the event and the item object the user holds, so the
model has container objects and references to them.
-/

namespace PyFLP

/-- `container[key] = value` (`construct.Container`, a `dict`): new keys are added. -/
def Rec.put (r : Rec) (key : String) (x : Option LV) : Rec :=
  if (Rec.lookup r key).isSome then Rec.update r key x else r ++ [(key, x)]

/-- A list event (`ListEventBase`, `_events.py:349-378`): `list` has the numbers of
container objects.  `AutomationEvent["points"]` is such a list, too. -/
structure ListObj where
  objs : List Rec
  list : List Nat
  deriving DecidableEq

/-- `ItemModel.__init__` (`_models.py:48-60`). -/
structure Item where
  ref : Nat
  index : Nat
  deriving DecidableEq

namespace ListObj

/-- Parsing creates one container per record (`_events.py:108-125, 360-378`). -/
def parse (l : List Rec) : ListObj := ⟨l, List.range l.length⟩

/-- The value of the event, which is what gets serialised. -/
def value (s : ListObj) : List Rec := s.list.map fun ref => s.objs.getD ref []

/-- One item object per container, with its index: `Pattern.notes`, `Pattern.controllers`
(`pattern.py:277-281, 297-301`), `Automation.__iter__` (`channel.py:1321-1324`),
`Arrangement.tracks` (`arrangement.py:374-398`). -/
def items (s : ListObj) : List Item := s.list.zipIdx.map fun x => ⟨x.1, x.2⟩

/-- `ItemModel.__getitem__` (`_models.py:61-62`). -/
def get (s : ListObj) (it : Item) (key : String) : Py (Option LV) :=
  match Rec.lookup (s.objs.getD it.ref []) key with
  | some v => .ok v
  | none => .error .keyError

/-- `ItemModel.__setitem__` (`_models.py:64-70`) and `AutomationPoint.__setitem__`
(`channel.py:1154-1156`): change the container, then store it at the item's index. -/
def set (s : ListObj) (it : Item) (key : String) (x : Option LV) : ListObj × Py Unit :=
  let s' : ListObj := { s with objs := s.objs.set it.ref (Rec.put (s.objs.getD it.ref []) key x) }
  if it.index < s'.list.length then ({ s' with list := s'.list.set it.index it.ref }, .ok ())
  else (s', .error .indexError)

end ListObj

/-- The records behind `pattern.notes` (event 224, `pattern.py:298-312`) and `pattern.controllers` (event 223,
`pattern.py:261-266`): one object per record of the first such event of the model, nothing if there is none.
Simplification: other values, which only an assignment can put there, raise `TypeError`. -/
def World.listRecords (w : World) (t id : Nat) : Py (List Rec) :=
  if w.contains t id then
    match w.heap.first t id with
    | .error e => .error e
    | .ok ref =>
      match (w.ev ref).value with
      | .items l => .ok l
      | _ => .error .typeError
  else .ok []

end PyFLP
