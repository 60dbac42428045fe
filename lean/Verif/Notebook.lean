import Verif.Plugins
/-!
# Fruity NoteBook 2 (`plugin.py:132-147`, `450-452`, `956-970`)

Its properties are `StructProp`s like those of other native plugins, but one of the values is a list of pages.
-/

namespace PyFLP

/-- `FruityNotebook2.active_page` (`plugin.py:960`): `event["active_page"]` (`_descriptors.py:214-225`).  Simplification: plugin
data of another class raises `TypeError` (a model of this class has none, see `pluginOf`). -/
def notebookActive : Descr Int where
  ids := [213]
  default := none
  readonly := false
  get := fun e =>
    match e.value with
    | .notebook _ p _ _ => .ok (some p)
    | _ => .error .typeError
  set := fun e v =>
    match e.value with
    | .notebook u _ ps b => .ok { e with value := .notebook u v ps b }
    | _ => .error .typeError

/-- `FruityNotebook2.editable` (`plugin.py:963`). -/
def notebookEditable : Descr Bool where
  ids := [213]
  default := none
  readonly := false
  get := fun e =>
    match e.value with
    | .notebook _ _ _ b => .ok (some b)
    | _ => .error .typeError
  set := fun e v =>
    match e.value with
    | .notebook u p ps _ => .ok { e with value := .notebook u p ps v }
    | _ => .error .typeError

/-- `FruityNotebook2.pages` (`plugin.py:969`): a list of containers `index`, `length`, `value`, or `index` alone where it is -1.
Simplification: only such lists are assigned. -/
def notebookPages : Descr (List Page) where
  ids := [213]
  default := none
  readonly := false
  get := fun e =>
    match e.value with
    | .notebook _ _ ps _ => .ok (some ps)
    | _ => .error .typeError
  set := fun e v =>
    match e.value with
    | .notebook u p _ b => .ok { e with value := .notebook u p v b }
    | _ => .error .typeError

/-- `page["value"] = s`.  Simplification: a page of index -1, whose text is never stored, does not get one. -/
def Page.withText (s : PStr) : Page → Page
  | .stop => .stop
  | .text i n _ => .text i n s

/-- `plugin.pages[k]["value"] = s`: the containers of the list are those of the event (`plugin.py:137-145`, `_events.py:337`). -/
def World.setPageText (w : World) (t k : Nat) (s : PStr) : World × Py Unit :=
  match notebookPages.read w t with
  | .error e => (w, .error e)
  | .ok none => (w, .error .typeError)
  | .ok (some ps) =>
    if k < ps.length then notebookPages.write w t (ps.modify k (Page.withText s)) else (w, .error .indexError)

end PyFLP
