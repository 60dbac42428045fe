import Verif.ChannelProps
/-!
# Plugins (`plugin.py:415-715`)

`PluginProp` and the properties of VST plugins.
-/

namespace PyFLP

/-! ### Sub-events of a VST plugin -/

/-- `_VSTPluginProp._get` (`plugin.py:468-469`): texts and bytes are the value; of anything else the item is taken, which
numbers do not have (`TypeError`). -/
def vstValue (key : String) : VstData → Py (Option LV)
  | .str s => .ok (some (.str s))
  | .raw bs => .ok (some (.bytes bs))
  | .fields r =>
    match Rec.lookup r key with
    | some v => .ok v
    | none => .error .keyError
  | .lv (.str s) => .ok (some (.str s))
  | .lv (.bytes bs) => .ok (some (.bytes bs))
  | .lv _ => .error .typeError

/-- `for e in event["events"]: if e["id"] == id: e["data"] = f(e["data"]); break` (`plugin.py:475-478, 500-506`). -/
def vstReplace (id : Int) (f : VstData → Py VstData) : List (Int × VstData) → Py (List (Int × VstData))
  | [] => .ok []
  | (i, d) :: es =>
    if i = id then (f d).map fun d' => (i, d') :: es
    else (vstReplace id f es).map fun es' => (i, d) :: es'

/-- The value a `_VSTPluginProp` assigns: texts and bytes are represented as the data they are equal to. -/
def vstData : LV → VstData
  | .str s => .str s
  | .bytes bs => .raw bs
  | x => .lv x

namespace World

/-- `_VSTPluginProp.__get__` (`plugin.py:460-466`).  Simplification: other classes of data events raise `KeyError`
(no model of such a property has one, see `pluginOf`). -/
def vstFind (w : World) (u : Nat) (id : Int) : Py VstData :=
  match w.heap.first u 213 with
  | .error e => .error e
  | .ok ref =>
    match (w.ev ref).value with
    | .vst _ es =>
      match es.find? fun e => e.1 == id with
      | some e => .ok e.2
      | none => .error .attributeError
    | _ => .error .keyError

@[inherit_doc vstFind]
def vstGet (w : World) (u : Nat) (id : Int) (key : String) : Py (Option LV) :=
  match w.vstFind u id with
  | .error e => .error e
  | .ok d => vstValue key d

/-- `_set` with an update of the first sub-event with the id (`plugin.py:471-478`); nothing happens if there is none. -/
def vstUpdate (w : World) (u : Nat) (id : Int) (f : VstData → Py VstData) : World × Py Unit :=
  match w.heap.first u 213 with
  | .error e => (w, .error e)
  | .ok ref =>
    match (w.ev ref).value with
    | .vst t es =>
      match vstReplace id f es with
      | .error e => (w, .error e)
      | .ok es' => (w.setEv ref { w.ev ref with value := .vst t es' }, .ok ())
    | _ => (w, .error .keyError)

/-- `_VSTPluginProp.__set__` (`plugin.py:471-478`): the data of the sub-event becomes the value. -/
def vstSet (w : World) (u : Nat) (id : Int) (x : LV) : World × Py Unit := w.vstUpdate u id fun _ => .ok (vstData x)

end World

/-- `self._flag in value[self._prop]` (`plugin.py:488-490`): `TypeError` for a missing number and for data that has no
items. -/
def vstFlagValue (key : String) (flag : Nat) (inverted : Bool) : VstData → Py Bool
  | .fields r =>
    match Rec.lookup r key with
    | some x => (flagWord x).map fun i => flagIn i flag != inverted
    | none => .error .keyError
  | _ => .error .typeError

/-- `data[prop] |= value` and `data[prop] &= ~value` with a boolean `value` (`plugin.py:492-506`): `True` is the number 1,
`~False` is -1. -/
def vstFlagUpdate (key : String) (value : Bool) : VstData → Py VstData
  | .fields r =>
    match Rec.lookup r key with
    | some x => (flagWord x).map fun i => .fields (Rec.update r key (some (.int (if value then flagOr i 1 else i))))
    | none => .error .keyError
  | _ => .error .typeError

namespace World

/-- `_VSTFlagProp.__get__` (`plugin.py:480-490`). -/
def vstFlagGet (w : World) (u : Nat) (key : String) (flag : Nat) (inverted : Bool) : Py Bool :=
  match w.vstFind u 2 with
  | .error e => .error e
  | .ok d => vstFlagValue key flag inverted d

/-- `_VSTFlagProp.__set__` (`plugin.py:471-473, 492-506`); the flag of the property is not used. -/
def vstFlagSet (w : World) (u : Nat) (key : String) (_flag : Nat) (inverted : Bool) (value : Bool) : World × Py Unit :=
  w.vstUpdate u 2 (vstFlagUpdate key (value != inverted))

end World

/-- A property of `VSTPlugin` with a sub-event: its name, the sub-event and the item (`plugin.py:553-554, 594-610, 695-713`). -/
def vstProps : List (String × Int × String) := [
  ("compatibility.fast_idle", 2, "fast_idle"), ("midi.input", 1, "input"), ("midi.output", 1, "output"),
  ("midi.pb_range", 1, "pb_range"), ("fourcc", 51, "fourcc"), ("guid", 52, "guid"), ("name", 54, "name"),
  ("plugin_path", 55, "plugin_path"), ("state", 53, "state"), ("vendor", 56, "vendor")]

/-- A flag of `VSTPlugin`: its name, the item, the bit and whether it is inverted (`plugin.py:242-267, 533-690`). -/
structure VstFlag where
  attr : String
  key : String
  bit : Nat
  inverted : Bool
  deriving DecidableEq, Repr

/-- All flags of `VSTPlugin` (`plugin.py:242-267, 533-690`). -/
def vstFlagProps : List VstFlag := [
  ⟨"automation.notify_changes", "flags", 6, true⟩,
  ⟨"compatibility.buffers_maxsize", "flags2", 1, false⟩, ⟨"compatibility.fixed_buffers", "flags", 1, false⟩,
  ⟨"compatibility.process_maximum", "flags2", 0, false⟩, ⟨"compatibility.reset_on_transport", "flags", 25, true⟩,
  ⟨"compatibility.send_loop", "flags", 11, false⟩, ⟨"compatibility.use_time_offset", "flags", 31, true⟩,
  ⟨"midi.send_modx", "flags", 17, false⟩, ⟨"midi.send_pb", "flags", 0, false⟩, ⟨"midi.send_release", "flags", 5, true⟩,
  ⟨"processing.allow_sd", "flags", 29, false⟩, ⟨"processing.bridged", "flags", 18, false⟩,
  ⟨"processing.external", "flags", 21, false⟩, ⟨"processing.keep_state", "flags", 16, true⟩,
  ⟨"processing.multithreaded", "flags", 12, false⟩, ⟨"processing.notify_render", "flags", 2, false⟩,
  ⟨"processing.process_inactive", "flags", 3, false⟩, ⟨"ui.accept_drop", "flags", 28, false⟩,
  ⟨"ui.always_update", "flags", 23, false⟩, ⟨"ui.dpi_aware", "flags", 26, false⟩, ⟨"ui.scale_editor", "flags", 30, false⟩]

namespace World

/-- Reading a flag of a VST plugin. -/
def getVstFlag (w : World) (u : Nat) (f : VstFlag) : Py Bool := w.vstFlagGet u f.key (2 ^ f.bit) f.inverted

/-- Assigning a flag of a VST plugin. -/
def setVstFlag (w : World) (u : Nat) (f : VstFlag) (v : Bool) : World × Py Unit :=
  w.vstFlagSet u f.key (2 ^ f.bit) f.inverted v

end World

/-! ### The plugin of a channel or slot -/

/-- The classes of plugins. -/
inductive PluginType
  /-- `_PluginBase`, for plugins without a class -/
  | base
  | vst | booBass | fruitKick | fruityBalance | fruityBloodOverdrive | fruityCenter | fruityFastDist | fruityNotebook2
  | fruitySend | fruitySoftClipper | fruityStereoEnhancer | plucked | soundgoodizer
  deriving DecidableEq, Repr

/-- `ptype.__orig_bases__[0].__args__[0]`: the class of the data event. -/
def PluginType.kind : PluginType → Kind
  | .base => .unknown
  | .vst => .vst
  | .booBass => .struct .booBass
  | .fruitKick => .struct .fruitKick
  | .fruityBalance => .struct .fruityBalance
  | .fruityBloodOverdrive => .struct .fruityBloodOverdrive
  | .fruityCenter => .struct .fruityCenter
  | .fruityFastDist => .struct .fruityFastDist
  | .fruityNotebook2 => .notebook
  | .fruitySend => .struct .fruitySend
  | .fruitySoftClipper => .struct .fruitySoftClipper
  | .fruityStereoEnhancer => .struct .fruityStereoEnhancer
  | .plucked => .struct .plucked
  | .soundgoodizer => .struct .soundgoodizer

/-- `INTERNAL_NAME`; `_PluginBase` has none. -/
def PluginType.internalName : PluginType → Option PStr
  | .base => none
  | .vst => some (PStr.lit "Fruity Wrapper")
  | .booBass => some (PStr.lit "BooBass")
  | .fruitKick => some (PStr.lit "Fruit Kick")
  | .fruityBalance => some (PStr.lit "Fruity Balance")
  | .fruityBloodOverdrive => some (PStr.lit "Fruity Blood Overdrive")
  | .fruityCenter => some (PStr.lit "Fruity Center")
  | .fruityFastDist => some (PStr.lit "Fruity Fast Dist")
  | .fruityNotebook2 => some (PStr.lit "Fruity NoteBook 2")
  | .fruitySend => some (PStr.lit "Fruity Send")
  | .fruitySoftClipper => some (PStr.lit "Fruity Soft Clipper")
  | .fruityStereoEnhancer => some (PStr.lit "Fruity Stereo Enhancer")
  | .plucked => some (PStr.lit "Plucked!")
  | .soundgoodizer => some (PStr.lit "Soundgoodizer")

/-- `Instrument.plugin` (`channel.py:1445`). -/
def instrumentPlugins : List PluginType := [.vst, .booBass, .fruitKick, .plucked]

/-- `Slot.plugin` (`mixer.py:350-361`). -/
def slotPlugins : List PluginType := [.vst, .fruityBalance, .fruityBloodOverdrive, .fruityCenter, .fruityFastDist,
  .fruityNotebook2, .fruitySend, .fruitySoftClipper, .fruityStereoEnhancer, .soundgoodizer]

namespace World

/-- `PluginProp._get_plugin_events` (`plugin.py:419-421`). -/
def pluginEvents (w : World) (t : Nat) : World × Nat := nestedProp [212, 213] w t

/-- `PluginProp.__get__` (`plugin.py:423-438`): the class and the events of the plugin. -/
def pluginOf (w : World) (t : Nat) (types : List PluginType) : World × Option (PluginType × Nat) :=
  match w.heap.first t 213 with
  | .error _ => (w, none)
  | .ok ref =>
    if (w.ev ref).kind = .unknown then
      let (w', u) := w.pluginEvents t
      (w', some (.base, u))
    else
      match types.find? fun p => (w.ev ref).kind == p.kind with
      | none => (w, none)
      | some p =>
        let (w', u) := w.pluginEvents t
        (w', some (p, u))

end World


/-- `ie.e = event` (`plugin.py:447`) for the event object `ref`. -/
def Heap.setRef (h : Heap) (a ref : Nat) : Heap := { h with cells := h.cells.set a { h.cell a with ref := ref } }

/-- `for ie in ins.events.lst: if ie.e.id == id: ie.e = value.events.first(id)` (`plugin.py:445-447`). -/
def Heap.replaceRefs (u id : Nat) : List Nat → Heap → Heap × Py Unit
  | [], h => (h, .ok ())
  | a :: l, h =>
    if h.idOf a = id then
      match h.first u id with
      | .error e => (h, .error e)
      | .ok ref => replaceRefs u id l (h.setRef a ref)
    else replaceRefs u id l h

namespace World

/-- The loops of `PluginProp.__set__` (`plugin.py:444-447`). -/
def replacePlugin (w : World) (t u : Nat) : World × Py Unit :=
  match w.heap.replaceRefs u 213 (w.heap.lst t) with
  | (h, .error e) => ({ w with heap := h }, .error e)
  | (h, .ok ()) =>
    match h.replaceRefs u 212 (h.lst t) with
    | (h', r) => ({ w with heap := h' }, r)

/-- `PluginProp.__set__` (`plugin.py:440-447`); the value is a plugin of the same project, its class and its events.
`internal_name` is a property of channels and slots (`channel.py:1186`, `mixer.py:331`). -/
def setPlugin (w : World) (t : Nat) (value : PluginType × Nat) : World × Py Unit :=
  match value.1.internalName with
  | none => w.replacePlugin t value.2
  | some name =>
    match (eventProp [201]).write w t (.str name) with
    | (w', .error e) => (w', .error e)
    | (w', .ok ()) => w'.replacePlugin t value.2

end World

end PyFLP
