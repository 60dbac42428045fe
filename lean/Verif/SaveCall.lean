import Verif.Rack
import Verif.ProjectModel
/-!
# Saving as a call on the objects of a program
-/

namespace PyFLP

/-- `pyflp.save` up to writing the file (`__init__.py:184-196`): `len(project.channels)` makes the tree of the rack and counts its
events (`project.py:208-222`, `channel.py:1591-1599`), then the events of the topmost tree are written. -/
def World.save [FloatEnv] (w : World) : World × Py Bytes :=
  let (w1, t) := w.channels
  match w1.lenRack t with
  | .error e => (w1, .error e)
  | .ok n =>
    match packHeader w1.format n w1.ppq with
    | .error e => (w1, .error e)
    | .ok hdr =>
      match eventsBytes (w1.events 0) with
      | .error e => (w1, .error e)
      | .ok body => (w1, assemble hdr body)

end PyFLP
