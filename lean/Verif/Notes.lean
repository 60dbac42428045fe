import Verif.Items
/-!
# Notes (`pattern.py:110-220`)
-/

namespace PyFLP

/-- `Note._NOTE_NAMES` (`pattern.py:111`). -/
def noteNames : List PStr := [
  PStr.lit "C", PStr.lit "C#", PStr.lit "D", PStr.lit "D#", PStr.lit "E", PStr.lit "F", PStr.lit "F#",
  PStr.lit "G", PStr.lit "G#", PStr.lit "A", PStr.lit "A#", PStr.lit "B"]

/-- `self._NOTE_NAMES[key % 12] + str(key // 12)` (`pattern.py:149`); the index is never out
of range. -/
def noteName (key : Int) : PStr := noteNames.getD (key % 12).toNat [] ++ intRepr (key / 12)

/-- What can be assigned to `note.key`. -/
inductive KeyArg
  | int (i : Int)
  | str (s : PStr)
  deriving DecidableEq

namespace ListObj

/-- `note.key` (`pattern.py:139-149`): `None % 12` and other types raise `TypeError`. -/
def noteKey (s : ListObj) (it : Item) : Py PStr :=
  match s.get it "key" with
  | .error e => .error e
  | .ok (some (.int k)) => .ok (noteName k)
  | .ok _ => .error .typeError

/-- The loop of the setter over the note names from number `i` on (`pattern.py:158-161`);
`value.replace(name, "", 1)` of a string that starts with `name` drops it. -/
def setKeyLoop (s : ListObj) (it : Item) (value : PStr) : List PStr → Nat → ListObj × Py Unit
  | [], _ => (s, .error .valueError)
  | name :: names, i =>
    if name.isPrefixOf value then
      match pyInt (value.drop name.length) with
      | none => (s, .error .valueError)
      | some octave =>
        match s.set it "key" (some (.int (octave * 12 + i))) with
        | (s', .error e) => (s', .error e)
        | (s', .ok ()) => setKeyLoop s' it value names (i + 1)
    else setKeyLoop s it value names (i + 1)

/-- `note.key = value` (`pattern.py:151-162`): after the loop `ValueError` is raised in any case. -/
def setNoteKey (s : ListObj) (it : Item) (a : KeyArg) : ListObj × Py Unit :=
  match a with
  | .int i =>
    if 0 ≤ i ∧ i < 132 then s.set it "key" (some (.int i)) else (s, .error .valueError)
  | .str value => s.setKeyLoop it value noteNames 0

/-- `note.slide` (`pattern.py:212`, `_descriptors.py:146-154`): bit 3 of the field `flags`. -/
def noteSlide (s : ListObj) (it : Item) : Py (Option Bool) :=
  match s.get it "flags" with
  | .error e => .error e
  | .ok word => flagRead 8 false word

/-- `note.slide = value` (`pattern.py:63-64, 212`, `_descriptors.py:156-165`): `Slide` is the only member of
`_NoteFlags`. -/
def setNoteSlide (ver : PyVer) (s : ListObj) (it : Item) (value : Bool) : ListObj × Py Unit :=
  match s.get it "flags" with
  | .error e => (s, .error e)
  | .ok word =>
    match flagWrite ver 8 8 false word value with
    | .error e => (s, .error e)
    | .ok word' => s.set it "flags" word'

/-- `del event[i]` of a list event (`collections.UserList`, `_events.py:349`). -/
def delete (s : ListObj) (i : Nat) : ListObj × Py Unit :=
  if i < s.list.length then ({ s with list := s.list.eraseIdx i }, .ok ()) else (s, .error .indexError)

end ListObj

end PyFLP
