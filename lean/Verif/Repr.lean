import Verif.PropTable
import Verif.ChannelProps
import Verif.Models
/-!
# Printing models (`ModelReprMixin`)
-/

namespace PyFLP

/-- What is printed for an attribute. -/
inductive Shown
  /-- `None` -/
  | none
  /-- the value of an event -/
  | value (v : Value)
  /-- a field -/
  | field (x : LV)
  | bool (b : Bool)
  | int (i : Int)
  /-- a member of `ReverbType` -/
  | reverb (t : ReverbType)
  /-- a constant of the class: `INTERNAL_NAME` -/
  | constant

/-- The value of a property. -/
def Access.shown : (a : Access) → Option a.type → Shown
  | _, .none => .none
  | .event, some v => .value v
  | .field _, some x => .field x
  | .flag .., some b => .bool b

/-- `getattr(self, var)` in the loop of `ModelReprMixin.__repr__` (`_models.py:125-126`), for a model of the class `cls` with the
events of the tree `t`: the properties written as functions are `Delay.mod_x` and `mod_y` (`channel.py:495-521`),
`Reverb.type` and `mix` (`channel.py:625-654`), `TimeMarker.position` and `type` (`timemarker.py:57-82`); the others are
in the table, and the rest are constants. -/
def World.attrShown (ver : PyVer) (w : World) (t : Nat) (cls var : String) : Py Shown :=
  match cls, var with
  | "Delay", "mod_x" => (w.delayX t).map .int
  | "Delay", "mod_y" => (w.delayY t).map .int
  | "Reverb", "type" => (w.reverbType t).map fun x => x.elim .none .reverb
  | "Reverb", "mix" => (w.reverbMix t).map fun x => x.elim .none .int
  | "TimeMarker", "position" => (w.markerPosition t).map fun x => x.elim .none .int
  | "TimeMarker", "type" => (w.markerIsSignature t).map fun x => x.elim .none .bool
  | _, _ =>
    match propTable.find? fun p => p.cls == cls && p.attr == var with
    | some p => (p.read ver w t).map p.acc.shown
    | none => .ok .constant

/-- `getattr(self, var, None)` (`_models.py:126`): the default replaces `AttributeError`s only. -/
def getattrOr (x : Py Shown) : Py Shown :=
  match x with
  | .error .attributeError => .ok .none
  | x => x

/-- The loop of `ModelReprMixin.__repr__` (`_models.py:123-126`) over the public names `vars` in the body of the class.
Simplification: names and values instead of the text made of them (`_models.py:128-129`); for these values `repr` returns
a text. -/
def World.reprModel (ver : PyVer) (w : World) (t : Nat) (cls : String) : List String → Py (List (String × Shown))
  | [] => .ok []
  | var :: vars =>
    match getattrOr (w.attrShown ver t cls var) with
    | .error e => .error e
    | .ok s => (World.reprModel ver w t cls vars).map ((var, s) :: ·)

end PyFLP
