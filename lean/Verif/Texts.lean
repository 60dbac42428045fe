import Verif.Tracks
import Verif.Notes
import Verif.ChannelProps
import Verif.ProjectModel
/-!
# The texts of models: hand-written `__repr__` and `__str__`

A text is a list of pieces.  Simplification: how a value itself is written (quotes and escapes in the `repr` of a string, the
digits of a number) is left out; the pieces say which values are written, where, and whether by `str` or `repr`.
-/

namespace PyFLP

/-- A piece of a text. -/
inductive Piece
  /-- written in the source -/
  | text (s : String)
  /-- `{n}` for a number the program has computed -/
  | num (i : Int)
  /-- `{x}`: the `str` of a property -/
  | str (v : Option Value)
  /-- `{x!r}`: the `repr` of a property -/
  | repr (v : Option Value)
  /-- the `str` of the field of a struct -/
  | field (v : Option LV)
  /-- the `repr` of a list of numbers -/
  | list (l : List Value)
  /-- the `repr` of a path -/
  | path (p : Option PosixPath)
  /-- a string the program has computed -/
  | chars (s : PStr)
  deriving DecidableEq

/-- A text. -/
abbrev Txt := List Piece

/-- `f"{text[:-1]}{more})"` for a text that ends with `)` (`channel.py:1371-1372`, `channel.py:1456-1457`). -/
def Txt.extend (t more : Txt) : Txt := t.dropLast ++ more ++ [.text ")"]

/-- `if self.name:` -/
def truthyProp : Option Value → Bool
  | some v => v.truthy
  | none => false

namespace World

/-- `try: len(self.events.first(id))`, `except KeyError: 0` (`pattern.py:238-246`).  Simplification: as in `World.listRecords`. -/
def recordCount (w : World) (u id : Nat) : Py Nat :=
  match w.heap.first u id with
  | .error .keyError => .ok 0
  | .error e => .error e
  | .ok ref =>
    match (w.ev ref).value with
    | .items l => .ok l.length
    | _ => .error .typeError

/-- `repr(pattern)` (`pattern.py:237-251`). -/
def reprPattern (w : World) (u : Nat) : Py Txt :=
  match w.recordCount u 224 with
  | .error e => .error e
  | .ok notes =>
    match w.recordCount u 223 with
    | .error e => .error e
    | .ok ctrls =>
      match w.patternIid u with
      | .error e => .error e
      | .ok iid => .ok [.text "Pattern(iid=", .str (some iid), .text ", name=", .repr (w.patternName u), .text ",", .num notes,
          .text " notes, ", .num ctrls, .text " controllers)"]

/-- `str(project.patterns)` (`pattern.py:318-320`). -/
def strPatterns (w : World) (t : Nat) : World × Py Txt :=
  let (w1, us) := w.iterPatterns t
  (w1, (w1.patternIids us).map fun iids => [.num iids.length, .text " Patterns ", .list iids])

/-- `str(timemarker)` (`timemarker.py:49-58`): without a position event the type is `None`, which is not `Marker`. -/
def strMarker (w : World) (u : Nat) : Py Txt :=
  match w.markerIsSignature u with
  | .error e => .error e
  | .ok typ =>
    match w.markerPosition u with
    | .error e => .error e
    | .ok pos =>
      let at_ : Txt := [.repr (pos.map fun n => .lv (.int n))]
      let name := w.prop u 205
      let named := truthyProp name
      if typ = some false then
        if named then .ok ([.text "Marker ", .repr name, .text " @ "] ++ at_)
        else .ok (.text "Unnamed marker @ " :: at_)
      else
        let sig : Txt := [.str (w.prop u 33), .text "/", .str (w.prop u 34)]
        if named then .ok ([.text "Signature ", .repr name, .text " ("] ++ sig ++ .text ") @ " :: at_)
        else .ok (.text "Unnamed " :: sig ++ .text " signature @ " :: at_)

/-- `str(group)` for a display group (`channel.py:437-440`). -/
def strGroup (w : World) (u : Nat) : Txt :=
  match w.prop u 231 with
  | none => [.text "Unnamed display group"]
  | some v => [.text "Display group ", .str (some v)]

end World

/-- `type(self).__name__`. -/
def ChClass.name : ChClass → String
  | .channel => "Channel"
  | .automation => "Automation"
  | .layer => "Layer"
  | .sampler => "Sampler"
  | .instrument => "Instrument"

namespace World

/-- `Channel.__repr__` (`channel.py:1174-1175`). -/
def reprChannelBase (w : World) (c : Chan) : Txt :=
  [.text c.cls.name, .text " (name=", .repr (w.displayName c.tree), .text ", iid=", .str (w.prop c.tree 64), .text ")"]

/-- `repr(channel)`: `Layer` (`channel.py:1371-1372`) and `Sampler` (`channel.py:1456-1457`) add something. -/
def reprChannel (w : World) (c : Chan) : Py Txt :=
  match c.cls with
  | .layer => .ok ((w.reprChannelBase c).extend [.text ", ", .num (w.lenLayer c.tree), .text " children"])
  | .sampler => (w.path c.tree 196).map fun p => (w.reprChannelBase c).extend [.text ", sample_path=", .path p]
  | _ => .ok (w.reprChannelBase c)

/-- `repr(project.channels)` (`channel.py:1541-1542`). -/
def reprRack (w : World) (t : Nat) : Py Txt :=
  (w.lenRack t).map fun n => [.text "ChannelRack - ", .num n, .text " channels"]

/-- `repr(project.arrangements)` (`arrangement.py:491-492`). -/
def reprArrangements (w : World) (t : Nat) : Py Txt :=
  (w.lenArrangements t).map fun n => [.num n, .text " arrangements"]

/-- `repr(arrangement)` (`arrangement.py:355-361`); as in `World.iterTracks`, `ct` and `pt` are the trees of the rack and of the
patterns the arrangement got and `v` is its version. -/
def reprArrangement (w : World) (u ct pt : Nat) (v : FLVersion) : World × Py Txt :=
  let iid := w.prop u 99
  let name := w.arrangementName u
  let (w1, ms) := w.timeMarkers u
  let (w2, ts, err) := w1.iterTracks u ct pt v
  match err with
  | some e => (w2, .error e)
  | none => (w2, .ok [.text "Arrangement(iid=", .str iid, .text ", name=", .repr name, .text ", ", .num ms.length,
      .text " timemarkers, ", .num ts.length, .text " tracks)"])

/-- `repr(track)` (`arrangement.py:269-270`). -/
def reprTrack (w : World) (t : TrackObj) : Py Txt :=
  let name := w.prop t.tree 239
  match (structProp [238] "iid").read w t.tree with
  | .error e => .error e
  | .ok iid => .ok [.text "Track(name=", .str name, .text ", iid=", .field iid, .text ", ", .num t.items.length, .text " items)"]

/-- `str(timesignature)` (`arrangement.py:406-407`). -/
def strTimeSignature (w : World) (u : Nat) : Txt :=
  [.text "Global time signature: ", .str (w.prop u 17), .text "/", .str (w.prop u 18)]

/-- `str(project.mixer)` (`mixer.py:628-629`). -/
def strMixer (w : World) (t : Nat) : Py Txt :=
  (w.lenMixer t).map fun n => [.text "Mixer: ", .num n, .text " inserts"]

/-- `repr(insert)` (`mixer.py:385-386`); `iid` is the number the insert got. -/
def reprInsert (w : World) (u : Nat) (iid : Int) : Txt :=
  [.text "Insert(name=", .repr (w.insertName u), .text ", iid=", .num iid, .text ")"]

/-- `FileFormat(value).name` (`project.py:78-111`). -/
def formatNames : List (Int × String) := [(-1, "None_"), (0, "Project"), (16, "Score"), (24, "Automation"), (32, "ChannelState"),
  (48, "PluginState"), (49, "GeneratorState"), (50, "FXState"), (64, "InsertState"), (80, "_ProbablyPatcher")]

/-- `str(project)` (`project.py:153-154`).  Simplification: what is assigned to `project.format` is a member of `FileFormat` if it has
the value of one (other numbers have no `name`). -/
def strProject (w : World) : Py Txt :=
  match w.version with
  | .error e => .error e
  | .ok v =>
    match formatNames.find? fun x => x.1 == w.format with
    | none => .error .attributeError
    | some x => .ok [.text "FL Studio v", .chars v.repr, .text " ", .text x.2]

end World

namespace ListObj

/-- `str(note)` (`pattern.py:118-119`). -/
def strNote (s : ListObj) (it : Item) : Py Txt :=
  match s.noteKey it with
  | .error e => .error e
  | .ok key =>
    match s.get it "position" with
    | .error e => .error e
    | .ok pos => (s.get it "length").map fun len => [.chars key, .text " note @ ", .field pos, .text " of ", .field len]

/-- `repr(note)` (`pattern.py:113-116`). -/
def reprNote (s : ListObj) (it : Item) : Py Txt :=
  match s.noteKey it with
  | .error e => .error e
  | .ok key =>
    match s.get it "position" with
    | .error e => .error e
    | .ok pos =>
      match s.get it "length" with
      | .error e => .error e
      | .ok len => (s.get it "rack_channel").map fun ch => [.text "Note(key=", .chars key, .text ", position=", .field pos,
          .text ", length=", .field len, .text ", channel=", .field ch, .text ")"]

/-- `str(controller)` (`pattern.py:222-224`). -/
def strController (s : ListObj) (it : Item) : Py Txt :=
  match s.get it "position" with
  | .error e => .error e
  | .ok pos => (s.get it "channel").map fun ch => [.text "Controller @ ", .field pos, .text " of channel #", .field ch]

end ListObj

end PyFLP
