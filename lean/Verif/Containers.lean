import Verif.Slices

/-!
What Python does with a collection besides iterating over it: `list(c)`, `bool(c)` and `reversed(c)`.
The classes define `__iter__`, `__len__` and `__getitem__`, and neither `__bool__` nor `__reversed__`
nor `__length_hint__`, so that these built-ins use `__len__` and `__getitem__`.
-/

namespace PyFLP

/-- Subclasses of `IndexError`: `ModelNotFound` (`exceptions.py:82`) and `ChannelNotFound` (`channel.py:80`). -/
def Exc.isIndexError : Exc → Bool
  | .indexError | .modelNotFound | .channelNotFound => true
  | _ => false

/-- A `ModelCollection` (`_models.py:85-93`): `__len__`, what a `for` loop gets (the models up to the first
exception, and this exception) and `__getitem__` of a number. -/
structure Coll (α : Type) where
  len : World → Py Nat
  iter : World → World × List α × Option Exc
  item : World → Int → World × Py α

namespace Coll

variable {α : Type}

/-- `list(c)`, and likewise `tuple(c)`, `sorted(c)`, `[*c]`, `f(*c)`: CPython gets an iterator, which runs nothing of a
generator function, then asks `len(c)` how much room to make (`PyObject_LengthHint`), then iterates.  An exception of `len(c)`
other than `TypeError`, which no `__len__` here raises, is passed on. -/
def list (c : Coll α) (w : World) : World × Py (List α) :=
  match c.len w with
  | .error e => (w, .error e)
  | .ok _ =>
    match c.iter w with
    | (w', l, none) => (w', .ok l)
    | (w', _, some e) => (w', .error e)

/-- `bool(c)`, `if c:`, `c or d`: a class without `__bool__` uses `__len__`. -/
def truth (c : Coll α) (w : World) : Py Bool :=
  match c.len w with
  | .error e => .error e
  | .ok n => .ok (decide (n ≠ 0))

/-- The iterator of `reversed(c)`: `c[n - 1]`, ..., `c[0]`; `IndexError` means that it has ended. -/
def countdown (c : Coll α) : Nat → World → World × List α × Option Exc
  | 0, w => (w, [], none)
  | n + 1, w =>
    match c.item w n with
    | (w', .error e) => (w', [], if e.isIndexError then none else some e)
    | (w', .ok m) =>
      match c.countdown n w' with
      | (w'', l, e) => (w'', m :: l, e)

/-- A `for` loop over `reversed(c)`. -/
def reversed (c : Coll α) (w : World) : World × List α × Option Exc :=
  match c.len w with
  | .error e => (w, [], some e)
  | .ok n => c.countdown n w

end Coll

namespace World

/-- `project.patterns` (`pattern.py:322-365`). -/
def patternsColl (t : Nat) : Coll Nat :=
  { len := fun w => w.lenPatterns t
    iter := fun w => ((w.iterPatterns t).1, (w.iterPatterns t).2, none)
    item := fun w i => w.getPattern t (.int i) }

/-- `project.arrangements` (`arrangement.py:435-489`). -/
def arrangementsColl (t : Nat) : Coll Nat :=
  { len := fun w => w.lenArrangements t
    iter := fun w =>
      match w.iterArrangements t with
      | (w', .ok us) => (w', us, none)
      | (w', .error e) => (w', [], some e)
    item := fun w i => w.getArrangement t (.int i) }

/-- `project.mixer` (`mixer.py:583-626`). -/
def mixerColl (t : Nat) (v : FLVersion) : Coll Nat :=
  { len := fun w => w.lenMixer t
    iter := fun w => ((w.iterInserts t v).1, (w.iterInserts t v).2, none)
    item := fun w i => w.getInsert t v (.int i) }

/-- An insert (`mixer.py:388-419`); `params` tells whether the mixer had parameters for it. -/
def insertColl (u : Nat) (params : Bool) : Coll Nat :=
  { len := fun w => .ok (w.lenInsert u)
    iter := fun w => w.iterSlots u params
    item := fun w i => w.getSlot u params (.int i) }

/-- `project.channels` (`channel.py:1540-1599`). -/
def rackColl (t : Nat) : Coll Chan :=
  { len := fun w => w.lenRack t
    iter := fun w => w.iterRack t
    item := fun w i =>
      match w.getChannel t (.int i) with
      | (w', .ok (c, _)) => (w', .ok c)
      | (w', .error e) => (w', .error e) }

/-- A layer channel (`channel.py:1344-1370`) when the channels `cs` have been yielded. -/
def layerColl (cs : List Chan) (u : Nat) : Coll Chan :=
  { len := fun w => .ok (w.lenLayer u)
    iter := fun w => (w, w.iterLayer cs u)
    item := fun w i => (w, w.getChild cs u i) }

end World

/-- A track of an arrangement (`arrangement.py:257-269`): all is passed on to the list of its items. -/
def itemsColl {α : Type} (items : List α) : Coll α :=
  { len := fun _ => .ok items.length
    iter := fun w => (w, items, none)
    item := fun w i =>
      (w, match (if 0 ≤ i then items[i.toNat]? else if -i ≤ items.length then items[(items.length + i).toNat]? else none) with
        | some m => .ok m
        | none => .error .indexError) }

end PyFLP
