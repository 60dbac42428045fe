import Verif.Automation
/-!
# Comparing events (`_events.py:127-135`)

`==` of events compares the ids and the values.  The values are compared as Python compares them: numbers by their
numerical values, `construct.Container`s by `Container.__eq__` (construct 2.10: keys that begin with `_` do not count),
lists item by item.
-/

namespace PyFLP

/-! ### Numbers -/

/-- A Python number: an integral multiple of `2 ^ -1074` (all integers and all finite binary64 numbers are), or an
infinity. -/
inductive Amount
  | fin (units : Int)
  | inf (negative : Bool)
  deriving DecidableEq, Repr

/-- The magnitude of a binary floating-point number with `p` fraction bits, in units of the least subnormal number; `x`
has the bits below the sign. -/
def fltMag (p x : Nat) : Nat :=
  if x / 2 ^ p = 0 then x % 2 ^ p else (2 ^ p + x % 2 ^ p) * 2 ^ (x / 2 ^ p - 1)

/-- The number of a bit pattern with `q` bits below the sign, `p` of them the fraction; `none` for NaN.  The least
subnormal number is `unit` times `2 ^ -1074`. -/
def fltNumber (p q unit bits : Nat) : Option Amount :=
  let x := bits % 2 ^ q
  let neg := bits / 2 ^ q % 2 = 1
  if x / 2 ^ p = 2 ^ (q - p) - 1 then
    if x % 2 ^ p = 0 then some (.inf neg) else none
  else some (.fin (if neg then -((fltMag p x * unit : Nat) : Int) else ((fltMag p x * unit : Nat) : Int)))

/-- The value of a number: `True` is 1, binary32 numbers become Python floats without loss. -/
def LV.number : LV → Option Amount
  | .int i => some (.fin (i * 2 ^ 1074))
  | .num i => some (.fin (i * 2 ^ 1074))
  | .bool b => some (.fin ((if b then 1 else 0) * 2 ^ 1074))
  | .f32 n => fltNumber 23 31 (2 ^ 925) n
  | .f64 n => fltNumber 52 63 1 n
  | _ => none

/-- `==` of field values.  `construct.Enum` values (plugin parameters) are strings or integers, one for each number, and
compared by their numbers. -/
def LV.pyEq : LV → LV → Bool
  | .bytes a, .bytes b => a == b
  | .pair a b, .pair c d => a == c && b == d
  | .time a b c, .time x y z => a == x && b == y && c == z
  | .str a, .str b => a == b
  | x, y =>
    match x.number, y.number with
    | some a, some b => a == b
    | _, _ => false

/-- `==` where a field may be `None`. -/
def optEq : Option LV → Option LV → Bool
  | none, none => true
  | some x, some y => x.pyEq y
  | _, _ => false

/-! ### Containers -/

/-- `k.startswith("_")` -/
def hiddenKey (k : String) : Bool := k.toList.head? == some '_'

/-- One of the two loops of `Container.__eq__`: the keys of `r`, which has to have the values of `r'`. -/
def keysAgree (r r' : Rec) : Bool :=
  r.all fun nv => hiddenKey nv.1 ||
    match Rec.lookup r nv.1, Rec.lookup r' nv.1 with
    | some v, some v' => optEq v v'
    | _, _ => false

/-- `construct.Container.__eq__` of two different objects. -/
def recEq (r r' : Rec) : Bool := keysAgree r r' && keysAgree r' r

/-- `==` of lists. -/
def listEq {α : Type} (eq : α → α → Bool) : List α → List α → Bool
  | [], [] => true
  | a :: l, b :: l' => eq a b && listEq eq l l'
  | _, _ => false

/-- `==` of the `data` of VST sub-events. -/
def VstData.pyEq : VstData → VstData → Bool
  | .fields r, .fields r' => recEq r r'
  | .str s, .str s' => s == s'
  | .raw b, .raw b' => b == b'
  | .lv x, .lv y => x.pyEq y
  | _, _ => false

section
variable [FloatAdd]

/-- The point with its computed field `position` (`channel.py:106-111`). -/
def withPosition (ps : List Rec) (i : Nat) (r : Rec) : Rec := ("position", some (.f64 (autoPosition ps i))) :: r

/-- The points of an automation event as its containers have them. -/
def fullPoints (ps : List Rec) : List Rec := ps.mapIdx (withPosition ps)

/-- `==` of the values of two events that do not share containers.  The fields of a notebook page and of a VST sub-event
have no names with `_`; the one of the page list and of the active page have none either, but `_u1` of a notebook and
`_u1`-`_u6` of an automation do (`channel.py:95-118`, `plugin.py:132-147, 287-313`). -/
def Value.pyEq : Value → Value → Bool
  | .lv x, .lv y => x.pyEq y
  | .color r g b a, .color r' g' b' a' => r == r' && g == g' && b == b' && a == a'
  | .str s, .str s' => s == s'
  | .bytes b, .bytes b' => b == b'
  | .fields r, .fields r' => recEq r r'
  | .items l, .items l' => listEq recEq l l'
  | .flags l, .flags l' => l == l'
  | .auto h ps _, .auto h' ps' _ => recEq h h' && listEq recEq (fullPoints ps) (fullPoints ps')
  | .notebook _ p ps e, .notebook _ p' ps' e' => p == p' && ps == ps' && e == e'
  | .vst t l, .vst t' l' => t == t' && listEq (fun x y => x.1 == y.1 && x.2.pyEq y.2) l l'
  | _, _ => false

/-- `event == other` (`_events.py:127-130`); `none` stands for an object that is no event. -/
def Event.eq (e : Event) : Option Event → Py Bool
  | none => .error .typeError
  | some o => .ok (e.id == o.id && e.value.pyEq o.value)

/-- `event != other` (`_events.py:132-135`). -/
def Event.ne (e : Event) : Option Event → Py Bool
  | none => .error .typeError
  | some o => .ok (e.id != o.id || !e.value.pyEq o.value)

end

/-- `event == event`: containers and lists are equal to themselves because they are the same object
(`Container.__eq__` and the comparison of list items begin with that), a float is compared with itself. -/
def Event.eqSelf (e : Event) : Bool :=
  match e.value with
  | .lv x => x.pyEq x
  | _ => true

end PyFLP
