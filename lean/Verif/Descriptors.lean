import Verif.World
/-!
# Property descriptors (`_descriptors.py:46-225`)

A descriptor is the pair of its `_get` and `_set` on an event, together with the
event ids, the default and the `readonly` mark of `PropBase`.
-/

namespace PyFLP

/-- `PropBase` and what its subclasses implement (`_descriptors.py:55-118`). -/
structure Descr (α : Type) where
  ids : List Nat
  default : Option α
  readonly : Bool
  /-- `_get`; `none` is Python's `None` -/
  get : Event → Py (Option α)
  /-- `_set`: the changed event -/
  set : Event → α → Py Event

namespace World

/-- `id in tree` (`_events.py:435-437`). -/
def contains (w : World) (t id : Nat) : Bool := (w.heap.lst t).any fun a => w.heap.idOf a == id

/-- The loop over the ids (`_descriptors.py:82-84`). -/
def firstOf (w : World) (t : Nat) : List Nat → Py (Option Nat)
  | [] => .ok none
  | id :: ids => if w.contains t id then (w.heap.first t id).map some else firstOf w t ids

/-- `PropBase._get_event` on an `EventModel` (`_descriptors.py:69-84`). -/
def getEvent (w : World) (t : Nat) (ids : List Nat) : Py (Option Nat) :=
  if ids.isEmpty then
    if 1 < (w.heap.lst t).length then .error .lookupError
    else
      match w.refs t with
      | [] => .error .indexError
      | r :: _ => .ok (some r)
  else w.firstOf t ids

end World

namespace Descr

variable {α : Type}

/-- `PropBase.__get__` on a model with the events of tree `t` (`_descriptors.py:96-108`). -/
def read (d : Descr α) (w : World) (t : Nat) : Py (Option α) :=
  match w.getEvent t d.ids with
  | .error e => .error e
  | .ok none => .ok d.default
  | .ok (some ref) => d.get (w.ev ref)

/-- `PropBase.__set__` (`_descriptors.py:110-118`). -/
def write (d : Descr α) (w : World) (t : Nat) (v : α) : World × Py Unit :=
  if d.readonly then (w, .error .propertyCannotBeSet)
  else
    match w.getEvent t d.ids with
    | .error e => (w, .error e)
    | .ok none => (w, .error .propertyCannotBeSet)
    | .ok (some ref) =>
      match d.set (w.ev ref) v with
      | .error e => (w, .error e)
      | .ok e => (w.setEv ref e, .ok ())

end Descr

/-! ### The three kinds -/

/-- `EventProp` (`_descriptors.py:192-199`). -/
def eventProp (ids : List Nat) (default : Option Value := none) (readonly : Bool := false) : Descr Value where
  ids := ids
  default := default
  readonly := readonly
  get := fun e => .ok (some e.value)
  set := fun e v => .ok { e with value := v }

/-- `container[key]`; `none` = no such key. -/
def Rec.lookup : Rec → String → Option (Option LV)
  | [], _ => none
  | (n, v) :: r, key => if n = key then some v else Rec.lookup r key

/-- `container[key] = value` for a key it has. -/
def Rec.update : Rec → String → Option LV → Rec
  | [], _, _ => []
  | (n, v) :: r, key, x => if n = key then (n, x) :: r else (n, v) :: Rec.update r key x

/-- `event[key]` of a `StructEventBase` (`collections.UserDict`); other events are
not subscriptable by strings.  (`AutomationEvent`, `FruityNotebook2Event` and
`VSTPluginEvent` are struct events with nested values; of these only
`AutomationLFO.amount` (`channel.py:1142`) goes through here.) -/
def structGet (e : Event) (key : String) : Py (Option LV) :=
  match e.value with
  | .fields r =>
    match Rec.lookup r key with
    | some v => .ok v
    | none => .error .keyError
  | .auto head _ _ =>
    match Rec.lookup head key with
    | some v => .ok v
    | none => .error .keyError
  | _ => .error .typeError

/-- `StructEventBase.__setitem__` (`_events.py:339-346`). -/
def structSet (e : Event) (key : String) (x : Option LV) : Py Event :=
  match e.value with
  | .fields r =>
    match Rec.lookup r key with
    | none => .error .keyError
    | some none => .error .propertyCannotBeSet
    | some (some _) => .ok { e with value := .fields (Rec.update r key x) }
  | .auto head points tail =>
    match Rec.lookup head key with
    | none => .error .keyError
    | some none => .error .propertyCannotBeSet
    | some (some _) => .ok { e with value := .auto (Rec.update head key x) points tail }
  | _ => .error .typeError

/-- `StructProp` (`_descriptors.py:214-225`). -/
def structProp (ids : List Nat) (key : String) (default : Option LV := none) (readonly : Bool := false) :
    Descr LV where
  ids := ids
  default := default
  readonly := readonly
  get := fun e => structGet e key
  set := fun e v => structSet e key (some v)

/-! ### Flags -/

/-- Versions of Python with different `enum.IntFlag.__invert__`. -/
inductive PyVer
  /-- up to 3.10: `~flag` is the two's complement -/
  | upTo310
  /-- from 3.11 on: `~flag` has the bits up to the highest bit of a member -/
  | from311
  deriving DecidableEq, Repr

/-- `word | flag` for non-negative numbers; the result is a member of the flag's class
(boundary `KEEP`), which is the same number. -/
def flagOr (word : Int) (flag : Nat) : Int := ((word.toNat ||| flag : Nat) : Int)

/-- `word & ~flag` for non-negative numbers; `members` are the bits of all members. -/
def flagAndNot (ver : PyVer) (members : Nat) (word : Int) (flag : Nat) : Int :=
  match ver with
  | .upTo310 => ((word.toNat ^^^ (word.toNat &&& flag) : Nat) : Int)
  | .from311 => ((word.toNat &&& (allBits members - flag) : Nat) : Int)

/-- `flag in FlagType(word)` for non-negative numbers. -/
def flagIn (word : Int) (flag : Nat) : Bool := (word.toNat &&& flag) == flag

/-- The number behind a flag word; `None` and other types make `|=` and `&=` fail. -/
def flagWord : Option LV → Py Int
  | some (.int i) => .ok i
  | some (.bool b) => .ok (if b then 1 else 0)
  | _ => .error .typeError

/-- `FlagProp._get` (`_descriptors.py:146-154`): `None` stays `None`. -/
def flagRead (flag : Nat) (inverted : Bool) (word : Option LV) : Py (Option Bool) :=
  match word with
  | none => .ok none
  | some x => (flagWord (some x)).map fun i => some (flagIn i flag != inverted)

/-- New flag word (`_descriptors.py:156-169`). -/
def flagWrite (ver : PyVer) (members flag : Nat) (inverted : Bool) (word : Option LV) (value : Bool) :
    Py (Option LV) :=
  (flagWord word).map fun i =>
    some (.int (if value != inverted then flagOr i flag else flagAndNot ver members i flag))

/-- Whether an event is a `StructEventBase`. -/
def Kind.isStruct : Kind → Bool
  | .struct _ | .automation | .notebook | .vst => true
  | _ => false

/-- `FlagProp` (`_descriptors.py:121-169`). -/
def flagProp (ver : PyVer) (members flag : Nat) (ids : List Nat) (key : String := "flags")
    (inverted : Bool := false) (default : Option Bool := none) : Descr Bool where
  ids := ids
  default := default
  readonly := false
  get := fun e =>
    if e.kind.isStruct then
      match structGet e key with
      | .error x => .error x
      | .ok word => flagRead flag inverted word
    else
      match e.value with
      | .lv x => flagRead flag inverted (some x)
      | _ => .error .typeError
  set := fun e v =>
    if e.kind.isStruct then
      match structGet e key with
      | .error x => .error x
      | .ok word =>
        match flagWrite ver members flag inverted word v with
        | .error x => .error x
        | .ok word' => structSet e key word'
    else
      match e.value with
      | .lv x =>
        match flagWrite ver members flag inverted (some x) v with
        | .ok (some x') => .ok { e with value := .lv x' }
        | .ok none => .error .typeError
        | .error x => .error x
      | _ => .error .typeError

/-- `NestedProp.__get__` (`_descriptors.py:202-211`): a model over the view of the
events with these ids. -/
def nestedProp (ids : List Nat) (w : World) (t : Nat) : World × Nat :=
  let r := w.heap.subtree t fun a => decide (w.heap.idOf a ∈ ids)
  ({ w with heap := r.1 }, r.2)

end PyFLP
