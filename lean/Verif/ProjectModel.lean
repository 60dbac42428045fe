import Verif.Descriptors
/-!
# `Project` (`project.py:138-545`)

Sub-models are views of the project's events chosen by a callback; the other
properties read and write single events or header values.
-/

namespace PyFLP

/-- The events a `select` callback with a state accepts, called for one event after
the other (`EventTree.subtree`, `_events.py:560-564`). -/
def pickBy {σ α : Type} (idOf : α → Nat) (step : σ → Nat → Bool × σ) : σ → List α → List α
  | _, [] => []
  | s, a :: l =>
    if (step s (idOf a)).1 then a :: pickBy idOf step (step s (idOf a)).2 l
    else pickBy idOf step (step s (idOf a)).2 l

/-- `self.events.subtree(select)` with such a callback.  The `IndexedEvent`s of a tree are
different objects, so choosing the accepted ones is a selection by identity. -/
def World.pickView {σ : Type} (w : World) (t : Nat) (step : σ → Nat → Bool × σ) (s : σ) : World × Nat :=
  let el := pickBy w.heap.idOf step s (w.heap.lst t)
  let r := w.heap.subtree t fun a => decide (a ∈ el)
  ({ w with heap := r.1 }, r.2)

/-- `select` of `Project.arrangements` (`project.py:155-177`); the state is `arrnew_occured`. -/
def arrangementsStep (s : Bool) (id : Nat) : Bool × Bool :=
  let s' := s || id == 99
  if timeMarkerID.has id && s' then (true, s')
  else (arrangementID.has id || arrangementsID.has id || trackID.has id, s')

/-- `select` of `Project.channels` (`project.py:212-219`); no state. -/
def channelsStep (_ : Unit) (id : Nat) : Bool × Unit :=
  if id = 236 then (false, ())
  else (channelID.has id || displayGroupID.has id || pluginID.has id || rackID.has id, ())

/-- `select` of `Project.mixer` (`project.py:340-354`); the state is `inserts_began`. -/
def mixerStep (s : Bool) (id : Nat) : Bool × Bool :=
  if mixerID.has id || insertID.has id || slotID.has id then (true, true)
  else (s && pluginID.has id, s)

/-- `select` of `Project.patterns` (`project.py:357-375`); the state is `arrnew_occured`. -/
def patternsStep (s : Bool) (id : Nat) : Bool × Bool :=
  if id = 99 then (false, true)
  else if timeMarkerID.has id && !s then (true, s)
  else (patternID.has id || patternsID.has id, s)

namespace World

/-- `project.channels.events` (`project.py:208-222`). -/
def channels (w : World) : World × Nat := w.pickView 0 channelsStep ()
/-- `project.patterns.events` (`project.py:357-376`). -/
def patterns (w : World) : World × Nat := w.pickView 0 patternsStep false

/-! ### Header values -/

/-- `Project.ppq = value` (`project.py:404-408`). -/
def setPPQ (w : World) (value : Int) : World × Py Unit :=
  if validPPQs.any fun q => (q : Int) = value then ({ w with ppq := value.toNat }, .ok ())
  else (w, .error .valueError)

/-- `Project.format = value` (`project.py:246`, `_descriptors.py:186-189`). -/
def setFormat (w : World) (value : Int) : World := { w with format := value }

/-- `Project.channel_count = value` (`project.py:202-206`). -/
def setChannelCount (w : World) (value : Int) : World × Py Unit :=
  if value < 0 then (w, .error .valueError)
  else ({ w with channelCount := value.toNat }, .ok ())

/-- `self.events.first(id)` on the project. -/
def firstEv (w : World) (id : Nat) : Py Nat := w.heap.first 0 id

/-- `self.events.first(id).value = v` for an event that exists, otherwise the given
exception. -/
def assignFirst (w : World) (id : Nat) (v : Value) (e : Exc) : World × Py Unit :=
  if w.contains 0 id then
    match w.firstEv id with
    | .ok ref => (w.setEv ref { w.ev ref with value := v }, .ok ())
    | .error x => (w, .error x)
  else (w, .error e)

/-- The text value of the first event with an id.  Simplification: other values (which only
an assignment can put there) raise `TypeError`. -/
def firstStr (w : World) (id : Nat) : Py PStr :=
  match w.firstEv id with
  | .error e => .error e
  | .ok ref =>
    match (w.ev ref).value with
    | .str s => .ok s
    | _ => .error .typeError

end World

/-! ### Versions -/

/-- `FLVersion` (`types.py:32-43`). -/
structure FLVersion where
  major : Int
  minor : Int := 0
  patch : Int := 0
  build : Option Int := none
  deriving DecidableEq, Repr

namespace FLVersion

/-- `FLVersion(*parts)`: one to four arguments. -/
def ofParts : List Int → Py FLVersion
  | [a] => .ok ⟨a, 0, 0, none⟩
  | [a, b] => .ok ⟨a, b, 0, none⟩
  | [a, b, c] => .ok ⟨a, b, c, none⟩
  | [a, b, c, d] => .ok ⟨a, b, c, some d⟩
  | _ => .error .typeError

/-- `self < other` of `@dataclass(order=True)` (`types.py:32`): tuples are compared at the
first place where they differ; `None` cannot be compared with a number. -/
def lt (v w : FLVersion) : Py Bool :=
  if v.major ≠ w.major then .ok (v.major < w.major)
  else if v.minor ≠ w.minor then .ok (v.minor < w.minor)
  else if v.patch ≠ w.patch then .ok (v.patch < w.patch)
  else
    match v.build, w.build with
    | some a, some b => .ok (a < b)
    | none, none => .ok false
    | _, _ => .error .typeError

/-- `self <= other`. -/
def le (v w : FLVersion) : Py Bool :=
  if v = w then .ok true else v.lt w

/-- `self > other`, `self >= other`. -/
def gt (v w : FLVersion) : Py Bool := w.lt v

@[inherit_doc gt]
def ge (v w : FLVersion) : Py Bool := w.le v

/-- `str(version)` (`types.py:39-43`). -/
def repr (v : FLVersion) : PStr :=
  intRepr v.major ++ 46 :: intRepr v.minor ++ 46 :: intRepr v.patch ++
    (match v.build with
     | none => []
     | some b => 46 :: intRepr b)

end FLVersion

/-- What can be assigned to `Project.version` (`project.py:526`). -/
inductive VersionArg
  | version (v : FLVersion)
  | str (s : PStr)
  | tuple (parts : List Int)
  deriving DecidableEq

/-- The parts of the new version (`project.py:530-537`). -/
def VersionArg.parts : VersionArg → Py (List Int)
  | .version v => .ok ([v.major, v.minor, v.patch] ++ v.build.toList)
  | .str s =>
    match intParts (pySplit 46 s) with
    | some ps => .ok ps
    | none => .error .valueError
  | .tuple ps => .ok ps

namespace World

/-- `Project.version` (`project.py:522-524`). -/
def version (w : World) : Py FLVersion :=
  match w.firstStr 199 with
  | .error e => .error e
  | .ok s =>
    match intParts (pySplit 46 s) with
    | none => .error .valueError
    | some ps => FLVersion.ofParts ps

/-- `Project.version = value` (`project.py:526-545`).  `FLBuild` (159) follows if there is
a fourth part. -/
def setVersion (w : World) (a : VersionArg) : World × Py Unit :=
  if w.contains 0 199 then
    match a.parts with
    | .error e => (w, .error e)
    | .ok ps =>
      if ps.length < 3 ∨ 4 < ps.length then (w, .error .valueError)
      else
        match w.assignFirst 199 (.str (pyJoin 46 (ps.map intRepr))) .keyError with
        | (w1, .error e) => (w1, .error e)
        | (w1, .ok ()) =>
          match ps with
          | [_, _, _, b] =>
            if w1.contains 0 159 then w1.assignFirst 159 (.lv (.int b)) .keyError else (w1, .ok ())
          | _ => (w1, .ok ())
  else (w, .error .propertyCannotBeSet)

end World

/-! ### Licensee -/

/-- `chr(n).isalnum()` for characters outside ASCII (Unicode tables).  Nothing is assumed
about it. -/
class UniEnv where
  isAlnum : Nat → Bool

/-- ASCII letters and digits. -/
def asciiAlnum (n : Nat) : Bool := (48 ≤ n && n ≤ 57) || (65 ≤ n && n ≤ 90) || (97 ≤ n && n ≤ 122)

/-- `chr(n).isalnum()`; `chr` raises `ValueError` outside 0-0x10FFFF. -/
def chrAlnum [UniEnv] (n : Int) : Py Bool :=
  if n < 0 ∨ 0x10FFFF < n then .error .valueError
  else if n < 128 then .ok (asciiAlnum n.toNat)
  else .ok (UniEnv.isAlnum n.toNat)

/-- The loop over `c1, c2` (`project.py:305-310`): what is appended, if anything;
`bytearray.append` raises `ValueError` from 256 on. -/
def licChar [UniEnv] (c : Nat) (idx : Nat) : Py (Option Nat) :=
  match chrAlnum ((c : Int) - 26 + idx) with
  | .error e => .error e
  | .ok true => if (c : Int) - 26 + idx < 256 then .ok (some ((c : Int) - 26 + idx).toNat) else .error .valueError
  | .ok false =>
    match chrAlnum ((c : Int) + 49 + idx) with
    | .error e => .error e
    | .ok true => if (c : Int) + 49 + idx < 256 then .ok (some ((c : Int) + 49 + idx).toNat) else .error .valueError
    | .ok false => .ok none

/-- The bytes collected by the getter (`project.py:301-310`). -/
def licDecode [UniEnv] : PStr → Nat → Py (List Nat)
  | [], _ => .ok []
  | c :: cs, idx =>
    match licChar c idx with
    | .error e => .error e
    | .ok x =>
      match licDecode cs (idx + 1) with
      | .error e => .error e
      | .ok ys => .ok (x.toList ++ ys)

/-- The bytes collected by the setter (`project.py:323-330`): characters that fit neither
way are skipped. -/
def licEncode : PStr → Nat → List Nat
  | [], _ => []
  | c :: cs, idx =>
    let c1 := (c : Int) + 26 - idx
    let c2 := (c : Int) - 49 - idx
    (if 0 < c1 ∧ c1 ≤ 127 then [c1.toNat] else if 0 < c2 ∧ c2 ≤ 127 then [c2.toNat] else []) ++
      licEncode cs (idx + 1)

namespace World

/-- `Project.licensee` (`project.py:299-312`). -/
def licensee [UniEnv] (w : World) : Py (Option PStr) :=
  if w.contains 0 200 then
    match w.firstStr 200 with
    | .error e => .error e
    | .ok s =>
      match licDecode s 0 with
      | .error e => .error e
      | .ok bs => if bs.all (· < 128) then .ok (some bs) else .error .unicodeError
  else .ok none

/-- `Project.licensee = value` (`project.py:314-330`): the version is compared first, the
outcome is ignored. -/
def setLicensee (w : World) (value : PStr) : World × Py Unit :=
  match w.version with
  | .error e => (w, .error e)
  | .ok v =>
    match v.lt ⟨1, 3, 9, none⟩ with
    | .error e => (w, .error e)
    | .ok _ => w.assignFirst 200 (.str (licEncode value 0)) .propertyCannotBeSet

end World

/-! ### Tempo -/

/-- A Python number: `int`, or a finite `float` as the rational it stands for.
(`inf` and `nan` are refused by the setter with `ValueError`, `nan` by `int(...)`.) -/
inductive PyNum
  | int (i : Int)
  | float (q : Rat)
  deriving DecidableEq

namespace PyNum

/-- The number. -/
def val : PyNum → Rat
  | .int i => i
  | .float q => q

/-- `float(x)` raises `OverflowError`. -/
def overflows : PyNum → Bool
  | .int i => 2 ^ 1024 - 2 ^ 970 ≤ i || i ≤ -(2 ^ 1024 - 2 ^ 970)
  | .float _ => false

/-- `x * 1000`, then `int(...)`. -/
def milli : PyNum → Int
  | .int i => i * 1000
  | .float q => trunc (fl (q * 1000))

/-- `int((x - math.floor(x)) * 1000)`. -/
def fine : PyNum → Int
  | .int _ => 0
  | .float q => trunc (fl (fl (q - q.floor) * 1000))

end PyNum

/-- `x + n / 1000` for an `int` x. -/
def addMilli (x n : Int) : Rat := fl ((x : Rat) + fl ((n : Rat) / 1000))

namespace World

/-- The integer value of the first event with an id.  Simplification: other values (which
only an assignment can put there) raise `TypeError`. -/
def firstInt (w : World) (id : Nat) : Py Int :=
  match w.firstEv id with
  | .error e => .error e
  | .ok ref =>
    match (w.ev ref).value with
    | .lv (.int i) => .ok i
    | _ => .error .typeError

/-- `Project.tempo` (`project.py:449-458`): `Tempo` (156) in thousandths, else
`_TempoCoarse` (66) and `_TempoFine` (93); `None + float` is a `TypeError`. -/
def tempo (w : World) : Py (Option PyNum) :=
  if w.contains 0 156 then (w.firstInt 156).map fun (n : Int) => some (.float (fl ((n : Rat) / 1000)))
  else
    match (if w.contains 0 66 then (w.firstInt 66).map some else .ok none) with
    | .error e => .error e
    | .ok coarse =>
      if w.contains 0 93 then
        match coarse, w.firstInt 93 with
        | _, .error e => .error e
        | none, .ok _ => .error .typeError
        | some c, .ok n => .ok (some (.float (addMilli c n)))
      else .ok (coarse.map .int)

/-- `FLVersion(1, 4, 2) <= version < FLVersion(11)` (`project.py:465`). -/
def maxTempo (v : FLVersion) : Py Rat :=
  match (⟨1, 4, 2, none⟩ : FLVersion).le v with
  | .error e => .error e
  | .ok false => .ok 522
  | .ok true =>
    match v.lt ⟨11, 0, 0, none⟩ with
    | .error e => .error e
    | .ok b => .ok (if b then 999 else 522)

/-- `if id in self.events.ids: self.events.first(id).value = v`. -/
def assignIf (w : World) (id : Nat) (v : Int) : World :=
  if w.contains 0 id then
    match w.firstEv id with
    | .ok ref => w.setEv ref { w.ev ref with value := .lv (.int v) }
    | .error _ => w
  else w

/-- `Project.tempo = value` (`project.py:460-481`). -/
def setTempo (w : World) (x : PyNum) : World × Py Unit :=
  match w.tempo with
  | .error e => (w, .error e)
  | .ok none => (w, .error .propertyCannotBeSet)
  | .ok (some _) =>
    match w.version with
    | .error e => (w, .error e)
    | .ok v =>
      match maxTempo v with
      | .error e => (w, .error e)
      | .ok mx =>
        match (match x with
          | .int _ => (.ok false : Py Bool)
          | .float _ => v.lt ⟨3, 4, 0, none⟩) with
        | .error e => (w, .error e)
        | .ok true => (w, .error .typeError)
        | .ok false =>
          if x.overflows then (w, .error .overflowError)
          else if mx < x.val ∨ x.val < 10 then (w, .error .valueError)
          else (((w.assignIf 156 x.milli).assignIf 93 x.fine).assignIf 66 x.val.floor, .ok ())

end World

/-! ### The other two sub-models -/

namespace World

/-- `project.arrangements.events` (`project.py:155-182`): the rack, the patterns and the
version are evaluated, too. -/
def arrangements (w : World) : World × Py Nat :=
  let (w1, t) := w.pickView 0 arrangementsStep false
  let (w2, _) := w1.channels
  let (w3, _) := w2.patterns
  match w3.version with
  | .error e => (w3, .error e)
  | .ok _ => (w3, .ok t)

/-- `project.mixer.events` (`project.py:340-356`). -/
def mixer (w : World) : World × Py Nat :=
  let (w1, t) := w.pickView 0 mixerStep false
  match w1.version with
  | .error e => (w1, .error e)
  | .ok _ => (w1, .ok t)

end World

end PyFLP
