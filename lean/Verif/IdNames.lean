import Verif.Py
import Verif.Declared

/-!
# The numbers of events as members of enumerations

`EventEnum(n)` gives the id of an event: the member of an enumeration that declares `n`, or a member that is made on the
spot and shown as the number.  The model keeps the state this depends on, which the interpreter shares between all
projects: the enumerations that are loaded and the members made so far.
-/

namespace PyFLP

/-- A member of an enumeration of event ids: declared in the class `cls` under a name (`_events.py:74-78`), or made by
`cls._missing_` (`_events.py:93-96`).  Two members are the same object just if these are equal: a class makes one object per
declared member, and one per number (`_value2member_map_`, `_events.py:92-96`). -/
inductive IdMember
  | declared (cls name : String) (value : Int)
  | made (cls : String) (value : Int)
  deriving DecidableEq, Repr

/-- `member.value` (`_events.py:76`, `_events.py:95`). -/
def IdMember.value : IdMember → Int
  | .declared _ _ v => v
  | .made _ v => v

/-- `member.name` (`_events.py:94`: the number in decimal). -/
def IdMember.name : IdMember → String
  | .declared _ n _ => n
  | .made _ v => toString v

/-- A class derived from `EventEnum` with its members, in the order of the class body. -/
structure IdClass where
  name : String
  members : List (Int × String)
  deriving DecidableEq, Repr

/-- `sc(value)` for a declared member (`_events.py:88-89`; the test `value in sc` is `_events.py:54-60`). -/
def IdClass.member (c : IdClass) (v : Int) : Option IdMember :=
  (c.members.find? fun m => m.1 == v).map fun m => .declared c.name m.2 v

/-- What lookups depend on: `EventEnum.__subclasses__()`, in the order in which the classes were made, and the members that
were made by `_missing_`: pairs of the class and the number. -/
structure IdState where
  classes : List IdClass
  made : List (String × Int)
  deriving DecidableEq, Repr

/-- `_events.py:85`: `0 <= value <= 255`. -/
def inByte (v : Int) : Bool := decide (0 ≤ v) && decide (v ≤ 255)

/-- `_events.py:91-97`, and the `ValueError` of `Enum.__new__` when `_missing_` returns `None`: the end of `_missing_` when
no subclass has the value. -/
def IdState.make (s : IdState) (cls : String) (v : Int) : IdState × Py IdMember :=
  if (cls, v) ∈ s.made then (s, .ok (.made cls v))
  else if inByte v then ({ s with made := (cls, v) :: s.made }, .ok (.made cls v))
  else (s, .error .valueError)

/-- `EventEnum(v)` (`_events.py:80-98`): `Enum.__new__` looks in `_value2member_map_` of `EventEnum` itself, which holds only
the members made before, and calls `_missing_`, which asks the subclasses first.  `v` is an integer; other arguments raise.
Simplification: `Enum.__new__` of Python 3.8 to 3.11.0.  (`enum.py` of later releases refuses a class without declared members
with `TypeError` before it calls `_missing_`: see `IdState.lookupStrict`.) -/
def IdState.lookup (s : IdState) (v : Int) : IdState × Py IdMember :=
  if ("EventEnum", v) ∈ s.made then (s, .ok (.made "EventEnum" v))
  else if inByte v then
    match s.classes.findSome? fun c => c.member v with
    | some m => (s, .ok m)
    | none => s.make "EventEnum" v
  else (s, .error .valueError)

/-- `cls(v)` for a class derived from `EventEnum`, such as `PatternID(v)`: a declared member, or one made by `_missing_`
(`_events.py:80-98`), where `cls.__subclasses__()` is empty. -/
def IdState.lookupIn (s : IdState) (cls : String) (v : Int) : IdState × Py IdMember :=
  match s.classes.find? fun c => c.name == cls with
  | none => (s, .error .attributeError)
  | some c =>
    match c.member v with
    | some m => (s, .ok m)
    | none => s.make cls v

/-- `EventEnum(v)` (`_events.py:80-98`) with `Enum.__new__` as in CPython 3.11.10 (`enum.py:1113-1117`): after the look at
`_value2member_map_`, a class without declared members is refused, and `EventEnum` has none. -/
def IdState.lookupStrict (s : IdState) (v : Int) : IdState × Py IdMember :=
  if ("EventEnum", v) ∈ s.made then (s, .ok (.made "EventEnum" v)) else (s, .error .typeError)

/-- What a program does that touches the ids: it looks one up (opening a file does so for every event, `__init__.py:123`,
`_events.py:123`), it calls one of the classes, or it imports a module with another class. -/
inductive IdOp
  | look (v : Int)
  | lookIn (cls : String) (v : Int)
  | load (c : IdClass)
  deriving DecidableEq, Repr

/-- One step of a program (`_events.py:63-98`). -/
def IdState.step (s : IdState) : IdOp → IdState
  | .look v => (s.lookup v).1
  | .lookIn cls v => (s.lookupIn cls v).1
  | .load c => { s with classes := s.classes ++ [c] }

/-- Many steps (`_events.py:63-98`). -/
def IdState.run (s : IdState) (ops : List IdOp) : IdState := ops.foldl IdState.step s

/-- A class of the source with its members (`Verif/Declared.lean`). -/
def idClassOf (cls : String) : IdClass :=
  ⟨cls, (Declared.events.filter fun d => d.cls == cls).map fun d => ((d.id : Int), d.member)⟩

/-- The state after `import pyflp`: the classes in the order in which `__init__.py:40-59` and the modules it imports make
them. `controller.py` is not imported. -/
def idStart : IdState :=
  ⟨["PluginID", "ChannelID", "DisplayGroupID", "RackID", "TimeMarkerID", "PatternsID", "PatternID",
    "ArrangementsID", "ArrangementID", "TrackID", "InsertID", "MixerID", "SlotID", "ProjectID"].map idClassOf, []⟩

end PyFLP
