import Verif.Items
/-!
# Struct events as dictionaries (`_events.py:328-346`)

`StructEventBase` is a `collections.UserDict` whose `data` is the container that was parsed.  `event[key] = value` checks
the key first; the other methods are those of `UserDict` and `MutableMapping`.

Not modelled: `copy()` (raises KeyError, as `update` of the empty copy does), `fromkeys` and `|` (TypeError: the class
needs two arguments), and the nested values of automations, notebooks and VST plugins.
-/

namespace PyFLP

/-- What can be done to a struct event. -/
inductive DOp
  /-- `event[key] = x` -/
  | set (key : String) (x : Option LV)
  /-- `del event[key]` -/
  | del (key : String)
  /-- `event.pop(key)` -/
  | pop (key : String)
  /-- `event.popitem()` -/
  | popitem
  /-- `event.clear()` -/
  | clear
  /-- `event.setdefault(key, x)` -/
  | setdefault (key : String) (x : Option LV)
  /-- `event.update(items)` -/
  | update (items : List (String × Option LV))
  /-- `event |= items` -/
  | merge (items : List (String × Option LV))
  /-- `event.value = container` -/
  | assign (r : Rec)

/-- A struct event: the container of the dictionary methods, and the one assigned to `event.value`, if any.  The latter is
what gets saved (`_events.py:139`); at first they are the same object (`_events.py:336-337`). -/
structure DictEv where
  data : Rec
  own : Option Rec
  deriving DecidableEq

/-- `del container[key]` -/
def Rec.erase : Rec → String → Rec
  | [], _ => []
  | (n, v) :: r, key => if n = key then r else (n, v) :: Rec.erase r key

namespace DictEv

/-- `EventBase.__init__` and `StructEventBase.__init__` (`_events.py:108-125, 334-337`). -/
def parsed (r : Rec) : DictEv := ⟨r, none⟩

/-- What is saved. -/
def saved (d : DictEv) : Rec := d.own.getD d.data

/-- `event[key]` -/
def get (d : DictEv) (key : String) : Py (Option LV) :=
  match Rec.lookup d.data key with
  | some v => .ok v
  | none => .error .keyError

/-- `StructEventBase.__setitem__` (`_events.py:339-346`). -/
def setItem (d : DictEv) (key : String) (x : Option LV) : DictEv × Py Unit :=
  match Rec.lookup d.data key with
  | none => (d, .error .keyError)
  | some none => (d, .error .propertyCannotBeSet)
  | some (some _) => ({ d with data := Rec.update d.data key x }, .ok ())

/-- The loop of `MutableMapping.update`. -/
def updateAll (d : DictEv) : List (String × Option LV) → DictEv × Py Unit
  | [] => (d, .ok ())
  | kv :: rest =>
    match d.setItem kv.1 kv.2 with
    | (d', .ok ()) => d'.updateAll rest
    | (d', .error e) => (d', .error e)

/-- The methods; `pop`, `popitem` and `setdefault` give a value (the model leaves out the key that `popitem` gives). -/
def run (d : DictEv) : DOp → DictEv × Py (Option (Option LV))
  | .set key x => ((d.setItem key x).1, (d.setItem key x).2.map fun _ => none)
  | .del key =>
    match Rec.lookup d.data key with
    | none => (d, .error .keyError)
    | some _ => ({ d with data := Rec.erase d.data key }, .ok none)
  | .pop key =>
    match Rec.lookup d.data key with
    | none => (d, .error .keyError)
    | some v => ({ d with data := Rec.erase d.data key }, .ok (some v))
  | .popitem =>
    match d.data with
    | [] => (d, .error .keyError)
    | (_, v) :: r => ({ d with data := r }, .ok (some v))
  | .clear => ({ d with data := [] }, .ok none)
  | .setdefault key x =>
    match Rec.lookup d.data key with
    | some v => (d, .ok (some v))
    | none => ((d.setItem key x).1, (d.setItem key x).2.map fun _ => some x)
  | .update items => ((d.updateAll items).1, (d.updateAll items).2.map fun _ => none)
  | .merge items => ({ d with data := items.foldl (fun r kv => Rec.put r kv.1 kv.2) d.data }, .ok none)
  | .assign r => ({ d with own := some r }, .ok none)

end DictEv

section
variable [FloatEnv]

/-- Whether building a field needs its key (`flagbuildnone` of construct): `c.Optional` does not. -/
def Fld.needed : Fld → Bool
  | .opt _ => false
  | _ => true

/-- `c.Struct(...).build` of a container with any keys: `obj[name]`, or `obj.get(name)` for optional fields. -/
def namedBuild (cx : Ctx) : Fields → Rec → Py Bytes
  | [], _ => .ok []
  | (n, f) :: fs, r =>
    match Rec.lookup r n, f.needed with
    | none, true => .error .keyError
    | v, _ =>
      match fldBuild cx f (v.getD none) with
      | .error e => .error e
      | .ok b =>
        match namedBuild cx fs r with
        | .error e => .error e
        | .ok bs => .ok (b ++ bs)

end

end PyFLP
