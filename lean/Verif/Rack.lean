import Verif.Collections
import Verif.MixerParams
/-!
# The channel rack (`channel.py:1171-1637`)
-/

namespace PyFLP

/-- `bool(value)` for the values of events. -/
def Value.truthy : Value → Bool
  | .lv x => x.truthy
  | .color .. => true
  | .str s => !s.isEmpty
  | .bytes bs => !bs.isEmpty
  | .fields r => !r.isEmpty
  | .items l => !l.isEmpty
  | .flags l => !l.isEmpty
  | .auto .. | .notebook .. | .vst .. => true

/-- The classes of channels. -/
inductive ChClass
  | channel | automation | layer | sampler | instrument
  deriving DecidableEq, Repr

/-- A channel object: its tree, its class, the tree of its display group and the key it has in the
dictionary shared by the channels of one iteration. -/
structure Chan where
  tree : Nat
  cls : ChClass
  group : Nat
  iid : Value
  deriving DecidableEq, Repr

/-- `ct` by the value of the type event (`channel.py:1570-1578`). -/
def classOfType (typ : Value) : ChClass :=
  if typ = .lv (.int 5) then .automation
  else if typ = .lv (.int 3) then .layer
  else if typ = .lv (.int 0) then .sampler
  else if typ = .lv (.int 4) ∨ typ = .lv (.int 2) then .instrument
  else .channel

namespace World

/-- `et.first(id).value`. -/
def firstVal (w : World) (u id : Nat) : Py Value :=
  match w.heap.first u id with
  | .error e => .error e
  | .ok ref => .ok (w.ev ref).value

/-- `self.events.separate(id)`. -/
def sepViews (w : World) (t id : Nat) : World × List Nat :=
  let r := w.heap.separate t id
  ({ w with heap := r.1 }, r.2)

/-- The body of the loop of `ChannelRack.__iter__` (`channel.py:1566-1588`) for one tree.
Simplifications: an event never has the value `None`, so that `iid is not None`; a group number that
is not an integer (which only an assignment can put there) raises `TypeError`. -/
def channelOf (w : World) (groups : List Nat) (u : Nat) : Py Chan :=
  match w.firstVal u 64 with
  | .error e => .error e
  | .ok iid =>
    match w.firstVal u 21 with
    | .error e => .error e
    | .ok typ =>
      match w.firstVal u 145 with
      | .error e => .error e
      | .ok groupnum =>
        let ct := classOfType typ
        let ct :=
          if w.contains u 196 && w.contains u 201 then
            match w.firstVal u 201 with
            | .ok v => if !v.truthy && ct = .instrument then ChClass.sampler else ct
            | .error _ => ct
          else ct
        match groupnum with
        | .lv (.int n) =>
          match pyIndex groups n with
          | none => .error .indexError
          | some g => .ok ⟨u, ct, g, iid⟩
        | _ => .error .typeError

/-- The channels that are yielded before the first exception, and this exception. -/
def rackLoop (w : World) (groups : List Nat) : List Nat → List Chan × Option Exc
  | [] => ([], none)
  | u :: us =>
    match w.channelOf groups u with
    | .error e => ([], some e)
    | .ok c =>
      let (cs, e) := rackLoop w groups us
      (c :: cs, e)

/-- `*ChannelID, *PluginID` -/
def rackIds : List Nat := channelID.map Prod.fst ++ pluginID.map Prod.fst

/-- Iterating over `project.channels` (`channel.py:1561-1589`).  Simplification: all trees are created
before the first channel is yielded, also when an exception is raised. -/
def iterRack (w : World) (t : Nat) : World × List Chan × Option Exc :=
  let (w1, groups) := w.sepViews t 231
  let (w2, us) := w1.divViews t 64 rackIds
  (w2, w2.rackLoop groups us)

/-- `len(project.channels)` (`channel.py:1591-1599`). -/
def lenRack (w : World) (t : Nat) : Py Nat :=
  if w.contains t 64 then .ok (w.count t 64) else .error .noModelsFound

/-- `channel.name` (`channel.py:1219`). -/
def channelName (w : World) (u : Nat) : Option Value :=
  match (eventProp [203, 192]).read w u with
  | .ok v => v
  | .error _ => none

/-- `channel.display_name` (`channel.py:1297-1300`): `self.name or self.internal_name`. -/
def displayName (w : World) (u : Nat) : Option Value :=
  match w.channelName u with
  | some v => if v.truthy then some v else w.prop u 201
  | none => w.prop u 201

/-- `(isinstance(i, int) and i == ch.iid) or (i == ch.display_name)` (`channel.py:1557`).
Simplification: values are equal only if they are the same value (`True == 1` in Python). -/
def rackMatch (w : World) (i : Subscript) (c : Chan) : Bool :=
  match i with
  | .int n => decide (w.prop c.tree 64 = some (.lv (.int n))) || decide (w.displayName c.tree = some (.lv (.int n)))
  | .str s => decide (w.displayName c.tree = some (.str s))
  | .slice .. => false

/-- The search of `ChannelRack.__getitem__` (`channel.py:1556-1559`): the channel and the channels
that were yielded up to it, which are those the shared dictionary has. -/
def rackFind (w : World) (i : Subscript) (e : Option Exc) : List Chan → List Chan → Py (Chan × List Chan)
  | _, [] => .error (e.getD .channelNotFound)
  | seen, c :: cs => if w.rackMatch i c then .ok (c, seen ++ [c]) else rackFind w i e (seen ++ [c]) cs

/-- `project.channels[i]` for a number or a string. -/
def getChannel (w : World) (t : Nat) (i : Subscript) : World × Py (Chan × List Chan) :=
  let (w1, cs, e) := w.iterRack t
  (w1, w1.rackFind i e [] cs)

/-- `automations`, `instruments`, `layers` and `samplers` (`channel.py:1601-1633`). -/
def channelsOf (cls : ChClass) (cs : List Chan) : List Chan := cs.filter fun c => decide (c.cls = cls)

/-- Iterating over `project.channels.automations`, `.instruments`, `.layers` or `.samplers`; none of these classes is a subclass
of another one. -/
def iterClass (w : World) (t : Nat) (cls : ChClass) : World × List Chan × Option Exc :=
  let (w1, cs, e) := w.iterRack t
  (w1, channelsOf cls cs, e)

/-- Iterating over `project.channels.groups` (`channel.py:1609-1612`). -/
def iterGroups (w : World) (t : Nat) : World × List Nat := w.sepViews t 231

/-! ### Layers -/

/-- `ch_dict[key]` when the channels `cs` have been yielded. -/
def chanBy (cs : List Chan) (key : Value) : Option Chan := (cs.reverse).find? fun c => decide (c.iid = key)

/-- The children yielded before the first exception, and this exception. -/
def childLoop (cs : List Chan) : List Value → List Chan × Option Exc
  | [] => ([], none)
  | v :: vs =>
    match chanBy cs v with
    | none => ([], some .keyError)
    | some c =>
      let (l, e) := childLoop cs vs
      (c :: l, e)

/-- Iterating over a layer (`channel.py:1360-1363`) when the channels `cs` have been yielded. -/
def iterLayer (w : World) (cs : List Chan) (u : Nat) : List Chan × Option Exc :=
  childLoop cs ((w.heap.get u [94]).map fun ref => (w.ev ref).value)

/-- `len(layer)` (`channel.py:1365-1370`): `count` raises nothing. -/
def lenLayer (w : World) (u : Nat) : Nat := w.count u 94

/-- The search of `Layer.__getitem__` (`channel.py:1355-1358`). -/
def layerFind (w : World) (i : Value) (e : Option Exc) : List Chan → Py Chan
  | [] => .error (e.getD .channelNotFound)
  | c :: cs => if w.prop c.tree 64 = some i then .ok c else layerFind w i e cs

/-- `layer[i]` for an `iid`. -/
def getChild (w : World) (cs : List Chan) (u : Nat) (i : Int) : Py Chan :=
  let r := w.iterLayer cs u
  w.layerFind (.lv (.int i)) r.2 r.1

end World

end PyFLP
