import Verif.Rack
/-!
# Properties of channels that are no plain descriptors (`channel.py:499-518, 619-654, 1234-1299, 1406-1528`),
paths (`project.py:249-272`)
-/

namespace PyFLP

/-- `ReverbType` (`channel.py:390-394`): its members are `A` and `B`. -/
inductive ReverbType
  | A | B
  deriving DecidableEq, Repr

/-- `ReverbType.value` -/
def ReverbType.value : ReverbType → Int
  | .A => 0
  | .B => 65536

namespace World

/-- `self.events.first(id).value = v` -/
def setFirstVal (w : World) (u id : Nat) (v : Value) : World × Py Unit :=
  match w.heap.first u id with
  | .error e => (w, .error e)
  | .ok ref => (w.setEv ref { w.ev ref with value := v }, .ok ())

/-- `self.events.first(id)[key]` -/
def firstGet (w : World) (u id : Nat) (key : String) : Py (Option Value) :=
  match w.heap.first u id with
  | .error e => .error e
  | .ok ref => (structGet (w.ev ref) key).map fun v => v.map Value.lv

/-- `self.events.first(id)[key] = v` -/
def firstSet (w : World) (u id : Nat) (key : String) (v : LV) : World × Py Unit :=
  match w.heap.first u id with
  | .error e => (w, .error e)
  | .ok ref =>
    match structSet (w.ev ref) key (some v) with
    | .error e => (w, .error e)
    | .ok e => (w.setEv ref e, .ok ())

/-- The getters of `Channel.pan` and `Channel.volume` (`channel.py:1234-1247, 1262-1275`), which differ in the key
and the ids. -/
def level (w : World) (u : Nat) (key : String) (word byte : Nat) : Py (Option Value) :=
  if w.contains u 219 then w.firstGet u 219 key
  else if w.contains u word then (w.firstVal u word).map some
  else if w.contains u byte then (w.firstVal u byte).map some
  else .ok none

/-- The loop over the ids in the setters (`channel.py:1258-1260, 1286-1288`). -/
def setAll (w : World) (u : Nat) (v : LV) : List Nat → World × Py Unit
  | [] => (w, .ok ())
  | id :: ids =>
    if w.contains u id then
      match w.setFirstVal u id (.lv v) with
      | (w', .error e) => (w', .error e)
      | (w', .ok ()) => setAll w' u v ids
    else setAll w u v ids

/-- The setters of `Channel.pan` and `Channel.volume` (`channel.py:1249-1260, 1277-1288`). -/
def setLevel (w : World) (u : Nat) (key : String) (word byte : Nat) (v : LV) : World × Py Unit :=
  match w.level u key word byte with
  | .error e => (w, .error e)
  | .ok none => (w, .error .propertyCannotBeSet)
  | .ok (some _) =>
    if w.contains u 219 then w.firstSet u 219 key v
    else w.setAll u v [word, byte]

/-- `channel.pan` (`channel.py:1234-1247`). -/
def pan (w : World) (u : Nat) : Py (Option Value) := w.level u "pan" 73 3
/-- `channel.pan = v` (`channel.py:1249-1260`). -/
def setPan (w : World) (u : Nat) (v : LV) : World × Py Unit := w.setLevel u "pan" 73 3 v
/-- `channel.volume` (`channel.py:1262-1275`). -/
def volume (w : World) (u : Nat) : Py (Option Value) := w.level u "volume" 72 2
/-- `channel.volume = v` (`channel.py:1277-1288`). -/
def setVolume (w : World) (u : Nat) (v : LV) : World × Py Unit := w.setLevel u "volume" 72 2 v

/-- `channel.zipped` (`channel.py:1291-1299`). -/
def zipped (w : World) (u : Nat) : Py Value :=
  if w.contains u 15 then w.firstVal u 15 else .ok (.lv (.bool false))

/-- `channel.pitch_shift` (`channel.py:1406-1414`). -/
def pitchShift (w : World) (u : Nat) : Py (Option Value) :=
  if w.contains u 219 then w.firstGet u 219 "pitch_shift" else .ok none

/-- `channel.pitch_shift = v` (`channel.py:1416-1423`): only the `KeyError` of `first` is replaced. -/
def setPitchShift (w : World) (u : Nat) (v : LV) : World × Py Unit :=
  match w.heap.first u 219 with
  | .error .keyError => (w, .error .propertyCannotBeSet)
  | .error e => (w, .error e)
  | .ok _ => w.firstSet u 219 "pitch_shift" v

/-! ### Reverb (`channel.py:619-654`) -/

/-- The number in the reverb event.  Values that are no numbers cannot be compared with numbers. -/
def reverbVal (w : World) (u : Nat) : Py Int :=
  match w.firstVal u 139 with
  | .error e => .error e
  | .ok (.lv (.int n)) => .ok n
  | .ok _ => .error .typeError

/-- `reverb.type` (`channel.py:625-629`). -/
def reverbType (w : World) (u : Nat) : Py (Option ReverbType) :=
  if w.contains u 139 then
    (w.reverbVal u).map fun n => some (if n ≥ ReverbType.B.value then .B else .A)
  else .ok none

/-- `reverb.mix` (`channel.py:638-647`). -/
def reverbMix (w : World) (u : Nat) : Py (Option Int) :=
  if w.contains u 139 then
    match w.reverbVal u with
    | .error e => .error e
    | .ok n =>
      match w.reverbType u with
      | .error e => .error e
      | .ok none => .error .typeError
      | .ok (some t) => .ok (some (n - t.value))
  else .ok none

/-- `reverb.type = t` (`channel.py:631-636`). -/
def setReverbType (w : World) (u : Nat) (t : ReverbType) : World × Py Unit :=
  match w.reverbMix u with
  | .error e => (w, .error e)
  | .ok none => (w, .error .propertyCannotBeSet)
  | .ok (some m) => w.setFirstVal u 139 (.lv (.int (t.value + m)))

/-- `reverb.mix = m` (`channel.py:649-654`). -/
def setReverbMix (w : World) (u : Nat) (m : Int) : World × Py Unit :=
  if w.contains u 139 then
    match w.reverbVal u with
    | .error e => (w, .error e)
    | .ok n => w.setFirstVal u 139 (.lv (.int (n + m)))
  else (w, .error .propertyCannotBeSet)

/-! ### Delay (`channel.py:499-518`) -/

/-- `self.events.first(ChannelID.DelayModXY).value` as a pair; other values are not modelled (`TypeError`). -/
def delayXY (w : World) (u : Nat) : Py (Int × Int) :=
  match w.firstVal u 138 with
  | .error e => .error e
  | .ok (.lv (.pair x y)) => .ok (x, y)
  | .ok _ => .error .typeError

/-- `delay.mod_x` -/
def delayX (w : World) (u : Nat) : Py Int := (w.delayXY u).map Prod.fst
/-- `delay.mod_y` -/
def delayY (w : World) (u : Nat) : Py Int := (w.delayXY u).map Prod.snd

/-- `delay.mod_x = v` -/
def setDelayX (w : World) (u : Nat) (v : Int) : World × Py Unit :=
  match w.delayXY u with
  | .error e => (w, .error e)
  | .ok (_, y) => w.setFirstVal u 138 (.lv (.pair v y))

/-- `delay.mod_y = v` -/
def setDelayY (w : World) (u : Nat) (v : Int) : World × Py Unit :=
  match w.delayXY u with
  | .error e => (w, .error e)
  | .ok (x, _) => w.setFirstVal u 138 (.lv (.pair x v))

/-! ### Dictionaries of models (`channel.py:1431-1439, 1467-1475, 1496-1504`) -/

/-- `dict(zip(names, [Model(e) for e in self.events.separate(id)]))` as a list of names and trees, or `None`.  The names are
different. -/
def namedViews (w : World) (u id : Nat) (names : List String) : World × Option (List (String × Nat)) :=
  if w.contains u id then
    let (w', us) := w.sepViews u id
    (w', some (names.zip us))
  else (w, none)

/-- `channel.tracking` -/
def tracking (w : World) (u : Nat) : World × Option (List (String × Nat)) := w.namedViews u 228 ["volume", "keyboard"]

/-- `sampler.envelopes` and `sampler.lfos` (both have the names of `channel.py:77-78`). -/
def envelopes (w : World) (u : Nat) : World × Option (List (String × Nat)) :=
  w.namedViews u 218 ["Panning", "Volume", "Mod X", "Mod Y", "Pitch"]

end World

/-! ### Paths -/

/-- `pathlib.PurePosixPath.splitroot`: the root and the rest. -/
def splitRoot (s : PStr) : PStr × PStr :=
  let rest := s.dropWhile (· == 47)
  if s.length - rest.length = 0 then ([], s)
  else if s.length - rest.length = 2 then ([47, 47], rest)
  else ([47], rest)

/-- `pathlib.PurePosixPath`: root and names. -/
structure PosixPath where
  root : PStr
  names : List PStr
  deriving DecidableEq, Repr

/-- `pathlib.Path(s)` on POSIX: empty names and `.` are left out.  (Standard library; on Windows drives and backslashes are
treated differently.) -/
def PosixPath.of (s : PStr) : PosixPath :=
  ⟨(splitRoot s).1, (pySplit 47 (splitRoot s).2).filter fun x => !x.isEmpty && x != [46]⟩

/-- `str(path)`: `.` for the empty path. -/
def PosixPath.str (p : PosixPath) : PStr :=
  let s := p.root ++ pyJoin 47 p.names
  if s.isEmpty then [46] else s

namespace World

/-- `pathlib.Path(self.events.first(id).value)` if there is such an event: `sampler.sample_path` (`channel.py:1511-1520`,
event 196), `project.data_path` (`project.py:249-258`, event 202). -/
def path (w : World) (u id : Nat) : Py (Option PosixPath) :=
  if w.contains u id then
    match w.firstVal u id with
    | .error e => .error e
    | .ok (.str s) => .ok (some (.of s))
    | .ok _ => .error .typeError
  else .ok none

/-- `"" if value == "." else value` -/
def pathText (s : PStr) : PStr := if s = [46] then [] else s

/-- `sampler.sample_path = path` (`channel.py:1522-1528`). -/
def setSamplePath (w : World) (u : Nat) (p : PosixPath) : World × Py Unit :=
  match w.path u 196 with
  | .error e => (w, .error e)
  | .ok none => (w, .error .propertyCannotBeSet)
  | .ok (some _) => w.setFirstVal u 196 (.str (pathText p.str))

/-- `project.data_path = value` (`project.py:260-269`) for a string or the string of a path. -/
def setDataPath (w : World) (u : Nat) (s : PStr) : World × Py Unit :=
  if w.contains u 202 then w.setFirstVal u 202 (.str (pathText s))
  else (w, .error .propertyCannotBeSet)

end World

end PyFLP
