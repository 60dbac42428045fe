import Verif.Models
/-!
# Arrangements, tracks, inserts and slots (`arrangement.py`, `mixer.py`)
-/

namespace PyFLP

namespace World

/-- `self.events.subtrees(select, repeat)` with a `select` that looks at the ids of events
and may keep a state. -/
def subViews {σ : Type} (w : World) (t : Nat) (step : σ → Nat → Option Bool × σ) (s : σ) (rep : Int) :
    World × List Nat :=
  let r := w.heap.subtrees t (fun s a => step s (w.heap.idOf a)) s rep
  ({ w with heap := r.1 }, r.2)

/-- `self.events.divide(separator, *ids)`. -/
def divViews (w : World) (t sep : Nat) (ids : List Nat) : World × List Nat :=
  let r := w.heap.divide t sep ids
  ({ w with heap := r.1 }, r.2)

/-- `self.events.count(id)` (`_events.py:475-477`). -/
def count (w : World) (t id : Nat) : Nat := (w.heap.get t [id]).length

/-- `EventProp` with one id on the events of a model: never fails. -/
def prop (w : World) (u id : Nat) : Option Value :=
  match (eventProp [id]).read w u with
  | .ok v => v
  | .error _ => none

end World

/-! ### Arrangements -/

/-- `select` of `Arrangements.__iter__` (`arrangement.py:464-477`); the state is
`arrnew_occured`. -/
def arrangementStep (s : Bool) (id : Nat) : Option Bool × Bool :=
  if id = 99 ∧ s then (some false, s)
  else
    let s' := s || id == 99
    if arrangementID.has id || timeMarkerID.has id || trackID.has id then (some true, s')
    else if id = 100 then (some false, s')
    else (none, s')

namespace World

/-- `len(project.arrangements)` (`arrangement.py:481-489`). -/
def lenArrangements (w : World) (t : Nat) : Py Nat :=
  if w.contains t 99 then .ok (w.count t 99) else .error .noModelsFound

/-- Iterating over `project.arrangements` (`arrangement.py:458-479`): the trees of the arrangements. -/
def iterArrangements (w : World) (t : Nat) : World × Py (List Nat) :=
  match w.lenArrangements t with
  | .error e => (w, .error e)
  | .ok n =>
    let r := w.subViews t arrangementStep false n
    (r.1, .ok r.2)

/-- `arrangement.name` (`arrangement.py:366`). -/
def arrangementName (w : World) (u : Nat) : Option Value := w.prop u 241

/-- `project.arrangements[i]` (`arrangement.py:435-450`).  Simplification: all arrangements
are created, not only those up to the one found. -/
def getArrangement (w : World) (t : Nat) (i : Subscript) : World × Py Nat :=
  match w.iterArrangements t with
  | (w1, .error e) => (w1, .error e)
  | (w1, .ok us) => (w1, getItem i (us.map fun u => (u, w1.arrangementName u)) 0)

/-- `project.arrangements.current` (`arrangement.py:495-508`).  Simplification: values other
than numbers (which only an assignment can put there) raise `TypeError`. -/
def currentArrangement (w : World) (t : Nat) : World × Py (Option Nat) :=
  if w.contains t 100 then
    match w.heap.first t 100 with
    | .error e => (w, .error e)
    | .ok ref =>
      match w.iterArrangements t with
      | (w1, .error e) => (w1, .error e)
      | (w1, .ok us) =>
        match (w.ev ref).value with
        | .lv (.int i) =>
          match pyIndex us i with
          | some u => (w1, .ok (some u))
          | none => (w1, .error .modelNotFound)
        | _ => (w1, .error .typeError)
  else (w, .ok none)

/-- The trees of `arrangement.tracks` (`arrangement.py:384`). -/
def trackViews (w : World) (u : Nat) : World × List Nat := w.divViews u 238 [239, 238]

end World

/-! ### Mixer -/

/-- `select` of `Mixer.__iter__` (`mixer.py:601-606`); no state. -/
def insertStep (_ : Unit) (id : Nat) : Option Bool × Unit :=
  if id = 147 then (some false, ())
  else if insertID.has id || pluginID.has id || slotID.has id then (some true, ())
  else (none, ())

/-- Comparison of the tuple `(major, minor, patch, build)` with a tuple of three numbers:
`version <= k`.  If the first three are equal the version is longer, hence greater. -/
def versionLe3 (v : FLVersion) (k : Int × Int × Int) : Bool :=
  if v.major ≠ k.1 then v.major < k.1
  else if v.minor ≠ k.2.1 then v.minor < k.2.1
  else v.patch < k.2.2

/-- `Mixer._MAX_INSERTS` (`mixer.py:566-574`). -/
def maxInsertsTable : List ((Int × Int × Int) × Nat) := [
  ((1, 6, 5), 5), ((2, 0, 1), 8), ((3, 0, 0), 18), ((3, 3, 0), 20), ((4, 0, 0), 64), ((9, 0, 0), 105),
  ((12, 9, 0), 127)]

/-- `Mixer._MAX_SLOTS` (`mixer.py:576`). -/
def maxSlotsTable : List ((Int × Int × Int) × Nat) := [((1, 6, 5), 4), ((3, 0, 0), 8)]

/-- The loop of `max_inserts` and `max_slots` (`mixer.py:648-652, 663-667`). -/
def bandOf (v : FLVersion) : List ((Int × Int × Int) × Nat) → Nat → Nat
  | [], default => default
  | (k, n) :: l, default => if versionLe3 v k then n else bandOf v l default

/-- `Mixer.max_inserts` (`mixer.py:635-652`). -/
def maxInserts (v : FLVersion) : Nat := bandOf v maxInsertsTable 127

/-- `Mixer.max_slots` (`mixer.py:654-667`). -/
def maxSlots (v : FLVersion) : Nat := bandOf v maxSlotsTable 10

namespace World

/-- The trees of iterating over `project.mixer` (`mixer.py:600-616`); `v` is the version the mixer got.
The `iid` of the insert at position `i` is `i - 1`. -/
def iterInserts (w : World) (t : Nat) (v : FLVersion) : World × List Nat :=
  w.subViews t insertStep () (maxInserts v)

/-- `len(project.mixer)` (`mixer.py:618-626`). -/
def lenMixer (w : World) (t : Nat) : Py Nat :=
  if w.contains t 236 then .ok (w.count t 236) else .error .noModelsFound

/-- `insert.name` (`mixer.py:489`). -/
def insertName (w : World) (u : Nat) : Option Value := w.prop u 204

/-- `insert.output` (`mixer.py:492`). -/
def insertOutput (w : World) (u : Nat) : Option Value := w.prop u 147

/-- `project.mixer[i]` (`mixer.py:583-598`): the loop compares `idx == i + 1`; that is, counting
from `-1`.  Simplification: all inserts are created, not only those up to the one found. -/
def getInsert (w : World) (t : Nat) (v : FLVersion) (i : Subscript) : World × Py Nat :=
  let (w1, us) := w.iterInserts t v
  (w1, getItem i (us.map fun u => (u, w1.insertName u)) (-1))

/-- The trees of the slots of an insert (`mixer.py:410-413`). -/
def slotViews (w : World) (u : Nat) : World × List Nat := w.divViews u 98 [98, 128, 155, 201, 203, 212, 213]

/-- `len(insert)` (`mixer.py:415-419`): `count` does not raise. -/
def lenInsert (w : World) (u : Nat) : Nat := w.count u 98

end World

end PyFLP
