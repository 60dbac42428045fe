import Verif.ChannelProps
import Verif.Models
/-!
# Automation clips (`channel.py:83-119, 1153-1168, 1307-1332`)
-/

namespace PyFLP

/-- The addition of binary64 numbers, given by their bit patterns.  Nothing is assumed about it. -/
class FloatAdd where
  add : Nat → Nat → Nat

section
variable [FloatAdd]

/-- The loop of `AutomationEvent._get_position` (`channel.py:85-93`) from `i` on, `n` steps: `stream.seek(21 + i * 24)`,
then `position += c.Float64l.parse_stream(stream)`. -/
def seekLoop (stream : Bytes) : Nat → Nat → Nat → Py Nat
  | _, 0, position => .ok position
  | i, n + 1, position =>
    match intParse 8 false (stream.drop (21 + i * 24)) with
    | .error e => .error e
    | .ok (v, _) => seekLoop stream (i + 1) n (FloatAdd.add position v.toNat)

/-- `AutomationEvent._get_position(stream, index)` (`channel.py:85-93`). -/
def streamPosition (stream : Bytes) (index : Nat) : Py Nat := seekLoop stream 0 (index + 1) 0

/-- The offset of a point. -/
def pointOffset (r : Rec) : Nat :=
  match Rec.lookup r "_offset" with
  | some (some (.f64 n)) => n
  | _ => 0

/-- The field `position` of the point with this index (`channel.py:106-111`): `c.Computed`, so that it is no part of the
stored value.  Simplifications: the code computes it when the event is parsed, the model when it is read (no property changes
the offsets); the code reads the offsets from the stream, see `C84_stream`. -/
def autoPosition (ps : List Rec) (index : Nat) : Nat :=
  if index > 0 then ((ps.take (index + 1)).map pointOffset).foldl FloatAdd.add 0
  else (ps.head?.map pointOffset).getD 0

end

/-- An `AutomationPoint`: its event object and its index.  (Its container is the one in the list of the event at this index:
no operation changes the list.) -/
structure Point where
  ev : Nat
  index : Nat
  deriving DecidableEq, Repr

namespace World

/-- The points of an event object. -/
def autoPoints (w : World) (ref : Nat) : Py (List Rec) :=
  match (w.ev ref).value with
  | .auto _ ps _ => .ok ps
  | _ => .error .typeError

/-- Iterating over an automation clip (`channel.py:1327-1332`). -/
def points (w : World) (u : Nat) : Py (List Point) :=
  if w.contains u 234 then
    match w.heap.first u 234 with
    | .error e => .error e
    | .ok ref => (w.autoPoints ref).map fun ps => (List.range ps.length).map fun i => ⟨ref, i⟩
  else .ok []

/-- `automation[i]` (`channel.py:1318-1323`) for a number; for a string no index is equal to it. -/
def getPoint (w : World) (u : Nat) (i : Int) : Py Point :=
  match w.points u with
  | .error e => .error e
  | .ok ps =>
    match ps.zipIdx.find? fun x => decide ((x.2 : Int) = i) with
    | some x => .ok x.1
    | none => .error .modelNotFound

/-- `point.value`, `point.tension` (`_models.py:61-62`, `_descriptors.py:214-222`). -/
def pointGet (w : World) (p : Point) (key : String) : Py (Option LV) :=
  match w.autoPoints p.ev with
  | .error e => .error e
  | .ok ps =>
    match Rec.lookup (ps.getD p.index []) key with
    | some v => .ok v
    | none => .error .keyError

/-- `point.position` -/
def pointPosition [FloatAdd] (w : World) (p : Point) : Py Nat := (w.autoPoints p.ev).map fun ps => autoPosition ps p.index

/-- `point[key] = v` (`channel.py:1154-1156`), for `point.value = v` and `point.tension = v`. -/
def pointSet (w : World) (p : Point) (key : String) (v : LV) : World × Py Unit :=
  match (w.ev p.ev).value with
  | .auto h ps tl =>
    if p.index < ps.length then
      (w.setEv p.ev { w.ev p.ev with value := .auto h (ps.set p.index (Rec.put (ps.getD p.index []) key (some v))) tl }, .ok ())
    else (w, .error .indexError)
  | _ => (w, .error .typeError)

/-- `point.position = v`: the property is read-only (`_descriptors.py:107-109`, `channel.py:1158`). -/
def setPosition (w : World) (_p : Point) (_v : Nat) : World × Py Unit := (w, .error .propertyCannotBeSet)

end World

end PyFLP
