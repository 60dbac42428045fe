import Verif.Items
/-!
# Mixer parameters (`mixer.py:81-149, 187-310, 438-455, 511-526`)

`MixerParamsEvent` keeps, beside its list of containers, dictionaries with the same
container objects, made once when the event is parsed.
-/

namespace PyFLP

/-- `d[k] = v` for a `dict`: an existing key keeps its place. -/
def dictPut {κ ν : Type} [DecidableEq κ] (k : κ) (v : ν) : List (κ × ν) → List (κ × ν)
  | [] => [(k, v)]
  | (k', v') :: d => if k' = k then (k, v) :: d else (k', v') :: dictPut k v d

/-- `d.get(k)`. -/
def dictGet {κ ν : Type} [DecidableEq κ] (k : κ) : List (κ × ν) → Option ν
  | [] => none
  | (k', v) :: d => if k' = k then some v else dictGet k d

/-- `container[key]` of an integer field of a parsed record; parsed records have all fields.
Simplification: 0 for anything else. -/
def Rec.int (r : Rec) (key : String) : Int :=
  match Rec.lookup r key with
  | some (some (.int i)) => i
  | _ => 0

/-- `(item["channel_data"] >> 6) & 0x7F` (`mixer.py:141`). -/
def paramInsert (r : Rec) : Nat := ((r.int "channel_data").toNat >>> 6) &&& 0x7F

/-- `item["channel_data"] & 0x3F` (`mixer.py:142`). -/
def paramSlot (r : Rec) : Nat := (r.int "channel_data").toNat &&& 0x3F

/-- `item["id"]` (`mixer.py:144`). -/
def paramId (r : Rec) : Int := r.int "id"

/-- `_InsertItems` (`mixer.py:117-122`): references to containers. -/
structure InsertItems where
  slots : List (Nat × List (Int × Nat))
  own : List (Int × Nat)
  deriving DecidableEq

/-- A `MixerParamsEvent` object (`mixer.py:125-137`). -/
structure ParamsObj where
  data : ListObj
  items : List (Nat × InsertItems)
  deriving DecidableEq

/-- One step of the loop in `MixerParamsEvent.__init__` (`mixer.py:140-149`); `items_` and `slots`
are `defaultdict`s. -/
def paramStep (d : List (Nat × InsertItems)) (x : Rec × Nat) : List (Nat × InsertItems) :=
  let insert := (dictGet (paramInsert x.1) d).getD ⟨[], []⟩
  let id := paramId x.1
  if id = 0 ∨ id = 1 then
    let slot := (dictGet (paramSlot x.1) insert.slots).getD []
    dictPut (paramInsert x.1) { insert with slots := dictPut (paramSlot x.1) (dictPut id x.2 slot) insert.slots } d
  else dictPut (paramInsert x.1) { insert with own := dictPut id x.2 insert.own } d

namespace ParamsObj

/-- `MixerParamsEvent.__init__` (`mixer.py:135-149`). -/
def parse (l : List Rec) : ParamsObj := ⟨.parse l, l.zipIdx.foldl paramStep []⟩

/-- What is saved. -/
def value (p : ParamsObj) : List Rec := p.data.value

/-- `insert._kw["params"].own` for the insert at position `i` of the iteration
(`mixer.py:608-616`): inserts without records get no `params`. -/
def own (p : ParamsObj) (i : Nat) : Py (List (Int × Nat)) :=
  match dictGet i p.items with
  | some it => .ok it.own
  | none => .error .keyError

/-- `item["msg"]`. -/
def msg (p : ParamsObj) (ref : Nat) : Py (Option LV) :=
  match Rec.lookup (p.data.objs.getD ref []) "msg" with
  | some v => .ok v
  | none => .error .keyError

/-- `item["msg"] = value`. -/
def setMsg (p : ParamsObj) (ref : Nat) (x : Option LV) : ParamsObj :=
  { p with data := { p.data with objs := p.data.objs.set ref (Rec.put (p.data.objs.getD ref []) "msg" x) } }

/-- `insert.pan`, `insert.volume`, `insert.stereo_separation` (`_MixerParamProp.__get__`,
`mixer.py:298-304`). -/
def get (p : ParamsObj) (i : Nat) (id : Int) : Py (Option LV) :=
  match p.own i with
  | .error e => .error e
  | .ok d =>
    match dictGet id d with
    | some ref => p.msg ref
    | none => .ok none

/-- `insert.pan = value` and so on (`_MixerParamProp.__set__`, `mixer.py:306-311`). -/
def set (p : ParamsObj) (i : Nat) (id : Int) (x : Option LV) : ParamsObj × Py Unit :=
  match p.own i with
  | .error e => (p, .error e)
  | .ok d =>
    match dictGet id d with
    | some ref => (p.setMsg ref x, .ok ())
    | none => (p, .error .propertyCannotBeSet)

/-- `insert.eq.low.gain` and so on (`mixer.py:187-195, 237-255, 457-463`); `id` is that of the band and
property.  The band has only the parameters that occur. -/
def eqGet (p : ParamsObj) (i : Nat) (id : Int) : Py (Option LV) :=
  match p.own i with
  | .error e => .error e
  | .ok d =>
    match dictGet id d with
    | some ref => p.msg ref
    | none => .error .keyError

/-- `insert.eq.low.gain = value` and so on (`mixer.py:194-195`). -/
def eqSet (p : ParamsObj) (i : Nat) (id : Int) (x : Option LV) : ParamsObj × Py Unit :=
  match p.own i with
  | .error e => (p, .error e)
  | .ok d =>
    match dictGet id d with
    | some ref => (p.setMsg ref x, .ok ())
    | none => (p, .error .keyError)

/-- The loop of `insert.routes` (`mixer.py:518-526`): `flags` is the iterator over the routing
flags. -/
def routesLoop (p : ParamsObj) : List (Int × Nat) → List Bool → Py (List (Option LV))
  | [], _ => .ok []
  | (id, ref) :: d, flags =>
    if id ≥ 64 then
      match flags with
      | [] => routesLoop p d []
      | cond :: flags =>
        if cond then
          match p.msg ref with
          | .error e => .error e
          | .ok v => (routesLoop p d flags).map (v :: ·)
        else routesLoop p d flags
    else routesLoop p d flags

/-- `list(insert.routes)` (`mixer.py:511-526`); `routing` are the flags of the insert's routing
event, if it has one. -/
def routes (p : ParamsObj) (i : Nat) (routing : Option (List Bool)) : Py (List (Option LV)) :=
  match routing with
  | none => .error .keyError
  | some flags =>
    match p.own i with
    | .error e => .error e
    | .ok d => p.routesLoop d flags

/-- The `params` of the slots (`mixer.py:410-413, 320-321`): a dictionary, or an empty list if it is
empty; never an `_InsertItems`, hence `slot.enabled` and `slot.mix` (`mixer.py:298-311`) raise
`AttributeError`.  The insert needs `params`. -/
def slotGet (p : ParamsObj) (i _slot : Nat) (_id : Int) : Py (Option LV) :=
  match p.own i with
  | .error e => .error e
  | .ok _ => .error .attributeError

end ParamsObj

/-- `list(insert.routes)` for the insert with the view `u` at position `i` (`mixer.py:511-526`): the flags are
those of its first routing event; `EventTree.first` raises `KeyError` if there is none.
Simplification: values that only an assignment of another type can put there raise `TypeError`. -/
def World.insertRoutes (w : World) (u : Nat) (p : ParamsObj) (i : Nat) : Py (List (Option LV)) :=
  match w.heap.first u 235 with
  | .error _ => p.routes i none
  | .ok ref =>
    match (w.ev ref).value with
    | .flags fs => p.routes i (some fs)
    | _ => .error .typeError

/-- `InsertDock` (`mixer.py:173-183`). -/
inductive Dock
  | left | middle | right
  deriving DecidableEq, Repr

/-- `flags` as a value of `InsertDock` (`mixer.py:450-455`). -/
def dockOf (flags : Int) : Dock :=
  if flagIn flags 0x40 then .middle else if flagIn flags 0x80 then .right else .left

/-- `insert.dock` (`mixer.py:438-455`).  A `flags` field that is `None` raises `ValueError`.
Simplification: values that only an assignment of another type can put there raise `TypeError`. -/
def World.insertDock (w : World) (u : Nat) : Py (Option Dock) :=
  match w.heap.first u 236 with
  | .error _ => .ok none
  | .ok ref =>
    match (w.ev ref).value with
    | .fields rec =>
      match Rec.lookup rec "flags" with
      | none => .error .keyError
      | some none => .error .valueError
      | some (some (.int n)) => .ok (some (dockOf n))
      | some (some _) => .error .typeError
    | _ => .error .typeError

/-- The `FlagProp`s of `Insert` (`mixer.py:421-426, 457, 472-478, 508, 528`): flag and `inverted`, in the
order of the class: `bypassed`, `channels_swapped`, `enabled`, `is_solo`, `locked`,
`polarity_reversed`, `separator_shown`. -/
def insertFlags : List (Nat × Bool) := [
  (4, true), (2, false), (8, false), (0x1000, false), (0x800, false), (1, false), (0x400, false)]

/-- The descriptor of such a property; all 16 bits are members of `_InsertFlags`
(`mixer.py:65-83`). -/
def insertFlagProp (ver : PyVer) (f : Nat × Bool) : Descr Bool :=
  flagProp ver 0xFFFF f.1 [236] "flags" f.2 none

end PyFLP
