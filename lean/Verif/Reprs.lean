import Verif.Repr
import Verif.Times
import Verif.Notebook
import Verif.Items
import Verif.Automation
/-!
# Printing models that are not in the table of properties: effects, remote controllers, notebooks, items
-/

namespace PyFLP

/-- What is printed for an attribute of `FX`: a value, or another model with its attributes. -/
inductive ShownDeep
  | plain (s : Shown)
  | model (attrs : List (String × Shown))

/-- The loop of `ModelReprMixin.__repr__` (`_models.py:123-126`) for `FX` (`channel.py:657-785`): `fx.reverb` is a `NestedProp`
(`channel.py:751`), which makes a new model each time it is read; the others are in the table.  A model is kept by its tree. -/
def World.fxAttrs (ver : PyVer) (t : Nat) : World → List String → Py (World × List (String × (Shown ⊕ Nat)))
  | w, [] => .ok (w, [])
  | w, var :: vars =>
    if var = "reverb" then
      let r := nestedProp [139] w t
      match World.fxAttrs ver t r.1 vars with
      | .error e => .error e
      | .ok (w', m) => .ok (w', (var, .inr r.2) :: m)
    else
      match getattrOr (w.attrShown ver t "FX" var) with
      | .error e => .error e
      | .ok s =>
        match World.fxAttrs ver t w vars with
        | .error e => .error e
        | .ok (w', m) => .ok (w', (var, .inl s) :: m)

/-- `f"{k}={v!r}"` (`_models.py:128`): the `repr` of each value; that of a `Reverb` (`channel.py:619-654`) shows its own attributes,
`type` and `mix`. -/
def World.fxValues (ver : PyVer) (w : World) : List (String × (Shown ⊕ Nat)) → Py (List (String × ShownDeep))
  | [] => .ok []
  | (var, .inl s) :: m => (World.fxValues ver w m).map ((var, .plain s) :: ·)
  | (var, .inr u) :: m =>
    match w.reprModel ver u "Reverb" ["type", "mix"] with
    | .error e => .error e
    | .ok a => (World.fxValues ver w m).map ((var, .model a) :: ·)

/-- `repr(fx)` (`_models.py:122-129`). -/
def World.reprFX (ver : PyVer) (w : World) (t : Nat) (vars : List String) : Py (List (String × ShownDeep)) :=
  match w.fxAttrs ver t vars with
  | .error e => .error e
  | .ok (w', m) => w'.fxValues ver m

/-- `repr(controller)` of a `RemoteController` (`_models.py:122-129`, `controller.py:51-76`). -/
def World.reprRemote (w : World) (t : Nat) : Py (List (String × Shown)) :=
  match getattrOr ((w.remoteParameter t).map fun x => x.elim .none .int) with
  | .error e => .error e
  | .ok p =>
    match getattrOr ((w.remoteControlsVst t).map fun x => x.elim .none .bool) with
    | .error e => .error e
    | .ok c => .ok [("parameter", p), ("controls_vst", c)]

/-- What is printed for the attributes of a notebook. -/
inductive ShownPage
  | plain (s : Shown)
  | pages (ps : List Page)

/-- `repr(plugin)` of a `FruityNotebook2` (`_models.py:122-129`, `plugin.py:956-970`). -/
def World.reprNotebook (w : World) (t : Nat) : Py (List (String × ShownPage)) :=
  match notebookActive.read w t with
  | .error e => .error e
  | .ok p =>
    match notebookEditable.read w t with
    | .error e => .error e
    | .ok b =>
      match notebookPages.read w t with
      | .error e => .error e
      | .ok ps => .ok [("INTERNAL_NAME", .plain .constant), ("active_page", .plain (p.elim .none .int)),
          ("editable", .plain (b.elim .none .bool)), ("pages", ps.elim (.plain .none) .pages)]

/-- `repr(item)` of a `pattern.Controller` (`_models.py:122-129`, `pattern.py:223-231`): reading a property of an item gives the
value in its container, or raises `KeyError` (`_models.py:61-62`, `_descriptors.py:214-222`). -/
def ListObj.reprItem (s : ListObj) (it : Item) : List String → Py (List (String × Shown))
  | [] => .ok []
  | var :: vars =>
    match s.get it var with
    | .error e => .error e
    | .ok v => (ListObj.reprItem s it vars).map ((var, v.elim .none .field) :: ·)

/-- `repr(point)` of an `AutomationPoint` (`_models.py:122-129`, `channel.py:1153-1168`). -/
def World.reprPoint [FloatAdd] (w : World) (p : Point) : Py (List (String × Shown)) :=
  match w.pointPosition p with
  | .error e => .error e
  | .ok n =>
    match w.pointGet p "tension" with
    | .error e => .error e
    | .ok x =>
      match w.pointGet p "value" with
      | .error e => .error e
      | .ok y => .ok [("position", .field (.f64 n)), ("tension", x.elim .none .field), ("value", y.elim .none .field)]

end PyFLP
