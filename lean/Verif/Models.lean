import Verif.ProjectModel
/-!
# Collections of models (`_models.py:86-117`) and patterns (`pattern.py`, `timemarker.py`)
-/

namespace PyFLP

/-- `ie.e` with its identity. -/
def World.entry (w : World) (a : Nat) : Nat × Event := ((w.heap.cell a).ref, w.ev (w.heap.cell a).ref)

/-- The event objects of a tree with their present content. -/
def World.entries (w : World) (t : Nat) : List (Nat × Event) := (w.heap.lst t).map w.entry

/-- `EventTree(self.events, el)` registered with `self.events.children`, one for each list
(`pattern.py:352-354`).  Simplification: the lists are selections of the tree's entries, so
that each view is modelled like the one of `subtree` choosing exactly these
(`_events.py:560-567` does the same two steps). -/
def World.listViews (w : World) (t : Nat) : List (List Nat) → World × List Nat
  | [] => (w, [])
  | el :: els =>
    let r := w.heap.subtree t fun a => decide (a ∈ el)
    let (w2, us) := World.listViews { w with heap := r.1 } t els
    (w2, r.2 :: us)

/-! ### Subscripts of collections -/

/-- What `collection[i]` gets; `none` in a slice is Python's `None`. -/
inductive Subscript
  | int (i : Int)
  | str (s : PStr)
  | slice (start stop : Option Int)
  deriving DecidableEq

/-- The loop of `Patterns.__getitem__` and `Arrangements.__getitem__`
(`pattern.py:333-336`, `arrangement.py:447-450`): `models` has the
models in the order of iteration with their names, `idx` is the index of the first one.
(The mixer, inserts and the rack differ.) -/
def getItem {α : Type} (i : Subscript) : List (α × Option Value) → Int → Py α
  | [], _ => .error .modelNotFound
  | (m, name) :: l, idx =>
    if (match i with
      | .int n => decide (idx = n)
      | _ => false) || (match i with
      | .str s => decide (name = some (.str s))
      | _ => false) then .ok m
    else getItem i l (idx + 1)

/-- The comprehension of `supports_slice` (`_models.py:113-114`): `range(i.start, i.stop)`
is evaluated for every model; `step` is ignored. -/
def getSlice {α : Type} (start stop : Option Int) : List (α × Option Value) → Int → Py (List α)
  | [], _ => .ok []
  | (m, _) :: l, idx =>
    match start, stop with
    | some a, some b =>
      match getSlice (some a) (some b) l (idx + 1) with
      | .error e => .error e
      | .ok ms => .ok (if a ≤ idx ∧ idx < b then m :: ms else ms)
    | _, _ => .error .typeError

/-! ### Patterns -/

/-- `d[key].append(a)` of a `defaultdict(list)`: keys in the order of insertion.
Simplification: keys are equal only if they are the same value (`New` is a `U16Event`, so all
keys are numbers unless a program assigns something else). -/
def dictPush {α : Type} (key : Value) (a : α) : List (Value × List α) → List (Value × List α)
  | [] => [(key, [a])]
  | (k, l) :: d => if k = key then (k, l ++ [a]) :: d else (k, l) :: dictPush key a d

/-- The loop of `Patterns.__iter__` (`pattern.py:342-350`): `cur` is `cur_pat_id`. -/
def patternLoop {α : Type} (ev : α → Event) : Value → List (Value × List α) → List α → List (Value × List α)
  | _, d, [] => d
  | cur, d, a :: l =>
    let cur := if (ev a).id = 65 then (ev a).value else cur
    patternLoop ev cur (if patternID.has (ev a).id || timeMarkerID.has (ev a).id then dictPush cur a d else d) l

namespace World

/-- Iterating over `project.patterns` for the tree `t` of `project.patterns` (`pattern.py:339-355`):
the trees of the patterns. -/
def iterPatterns (w : World) (t : Nat) : World × List Nat :=
  w.listViews t ((patternLoop (fun a => (w.entry a).2) (.lv (.int 0)) [] (w.heap.lst t)).map Prod.snd)

/-- `len(project.patterns)` (`pattern.py:357-365`). -/
def lenPatterns (w : World) (t : Nat) : Py Nat :=
  if w.contains t 65 then .ok ((w.heap.get t [65]).map fun ref => (w.ev ref).value).eraseDups.length
  else .error .noModelsFound

/-- `pattern.iid` (`pattern.py:276`). -/
def patternIid (w : World) (u : Nat) : Py Value :=
  match w.heap.first u 65 with
  | .error e => .error e
  | .ok ref => .ok (w.ev ref).value

/-- `pattern.iid = value` (`pattern.py:278-281`). -/
def setPatternIid (w : World) (u : Nat) (v : Value) : World :=
  (w.heap.get u [65]).foldl (fun w ref => w.setEv ref { w.ev ref with value := v }) w

/-- `pattern.name` (`pattern.py:295`) of a pattern's tree: `EventProp` never fails. -/
def patternName (w : World) (u : Nat) : Option Value :=
  match (eventProp [193]).read w u with
  | .ok v => v
  | .error _ => none

/-- `project.patterns[i]` (`pattern.py:322-336`).  Simplification: all patterns are created,
not only those up to the one found. -/
def getPattern (w : World) (t : Nat) (i : Subscript) : World × Py Nat :=
  let (w1, us) := w.iterPatterns t
  (w1, getItem i (us.map fun u => (u, w1.patternName u)) 0)

/-- `project.patterns[a:b]`. -/
def slicePatterns (w : World) (t : Nat) (start stop : Option Int) : World × Py (List Nat) :=
  let (w1, us) := w.iterPatterns t
  (w1, getSlice start stop (us.map fun u => (u, w1.patternName u)) 0)

/-- The search of `Patterns.current` (`pattern.py:381-383`). -/
def findIid (w : World) (v : Value) : List Nat → Py (Option Nat)
  | [] => .ok none
  | u :: us =>
    match w.patternIid u with
    | .error e => .error e
    | .ok iid => if iid = v then .ok (some u) else findIid w v us

/-- `project.patterns.current` (`pattern.py:376-383`). -/
def currentPattern (w : World) (t : Nat) : World × Py (Option Nat) :=
  if w.contains t 67 then
    match w.heap.first t 67 with
    | .error e => (w, .error e)
    | .ok ref =>
      let (w1, us) := w.iterPatterns t
      (w1, w1.findIid (w.ev ref).value us)
  else (w, .ok none)

/-! ### Time markers -/

/-- `pattern.timemarkers`, `arrangement.timemarkers` (`pattern.py:311-314`,
`arrangement.py:369-371`): `self.events.group(*TimeMarkerID)`. -/
def timeMarkers (w : World) (u : Nat) : World × List Nat :=
  let r := w.heap.group u [33, 34, 148, 205]
  ({ w with heap := r.1 }, r.2)

/-- The value of the position event; `None` if there is none.  Simplification: values other
than numbers (which only an assignment can put there) raise `TypeError`. -/
def markerValue (w : World) (u : Nat) : Py (Option Int) :=
  if w.contains u 148 then
    match w.heap.first u 148 with
    | .error e => .error e
    | .ok ref =>
      match (w.ev ref).value with
      | .lv (.int i) => .ok (some i)
      | _ => .error .typeError
  else .ok none

/-- `timemarker.position` (`timemarker.py:64-69`). -/
def markerPosition (w : World) (u : Nat) : Py (Option Int) :=
  match w.markerValue u with
  | .error e => .error e
  | .ok none => .ok none
  | .ok (some v) => .ok (some (if v < 134217728 then v else v - 134217728))

/-- `timemarker.type` (`timemarker.py:71-82`); `true` is `TimeMarkerType.Signature`. -/
def markerIsSignature (w : World) (u : Nat) : Py (Option Bool) :=
  match w.markerValue u with
  | .error e => .error e
  | .ok none => .ok none
  | .ok (some v) => .ok (some (decide (134217728 ≤ v)))

end World

end PyFLP
