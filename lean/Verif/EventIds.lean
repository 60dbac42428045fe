import Verif.Structs
/-!
# Event types and the ID enumerations
-/

namespace PyFLP

/-- The event classes (`_events.py` and the modules' `STRUCT` classes). -/
inductive Kind
  | bool | i8 | u8 | i16 | u16 | f32 | i32 | u32 | u16t | color
  | ascii | unicode | unknown
  | struct (s : SName)
  | list (l : LName)
  | routing | automation | notebook | vst
  deriving DecidableEq, Repr

/-- An ID enumeration: its members' values with their `type` attribute
(`None` when the member is a plain integer), `_events.py:63-79`. -/
abbrev IdEnum := List (Nat × Option Kind)

/-- `plugin.py:328-339` -/
def pluginID : IdEnum := [
  (128, some .color), (155, some .u32), (201, none), (203, none), (212, some (.struct .wrapper)),
  (213, none)]

/-- `channel.py:315-374` -/
def channelID : IdEnum := [
  (0, some .bool), (2, some .u8), (3, some .u8), (15, some .bool), (20, some .bool), (21, some .u8),
  (22, some .i8), (32, some .bool), (64, some .u16), (69, some .u16), (70, some .u16),
  (71, some .u16), (72, some .u16), (73, some .u16), (74, some .u16), (75, some .u16),
  (76, some .u16), (83, some .u16), (85, some .u16), (86, some .u16), (89, some .u16),
  (94, some .u16), (97, some .u16), (131, some .u16t), (132, some .u16t), (135, some .u32),
  (138, some .u16t), (139, some .u32), (140, some .f32), (142, some .i32), (143, some .u32),
  (144, some .u32), (145, some .i32), (153, some .u32), (192, none), (196, none),
  (209, some (.struct .delay)), (215, some (.struct .parameters)), (218, some (.struct .envelopeLFO)),
  (219, some (.struct .levels)), (221, some (.struct .polyphony)), (228, some (.struct .tracking)),
  (229, some (.struct .levelAdjusts)), (234, some .automation)]

/-- `channel.py:378-379` -/
def displayGroupID : IdEnum := [(231, none)]

/-- `channel.py:383-386` -/
def rackID : IdEnum := [(11, some .u8), (13, some .u8), (133, some .u32)]

/-- `timemarker.py:28-32` -/
def timeMarkerID : IdEnum := [(33, some .u8), (34, some .u8), (148, some .u32), (205, none)]

/-- `pattern.py:88-90` -/
def patternsID : IdEnum := [(30, some .bool), (67, some .u16)]

/-- `pattern.py:95-107` -/
def patternID : IdEnum := [
  (26, some .bool), (65, some .u16), (150, some .color), (193, none), (160, some .u32),
  (161, some .i32), (162, some .u32), (164, some .u32), (223, some (.list .controller)),
  (224, some (.list .notes))]

/-- `arrangement.py:153-159` -/
def arrangementsID : IdEnum := [
  (17, some .u8), (18, some .u8), (100, some .u16), (152, some .u16t),
  (217, some (.struct .plSelection))]

/-- `arrangement.py:163-167` -/
def arrangementID : IdEnum := [(99, some .u16), (241, none), (233, some (.list .playlist))]

/-- `arrangement.py:171-173` -/
def trackID : IdEnum := [(239, none), (238, some (.struct .track))]

/-- `mixer.py:153-160` -/
def insertID : IdEnum := [
  (95, some .i16), (147, some .i32), (149, some .color), (154, some .i32), (204, none),
  (235, some .routing), (236, some (.struct .insertFlags))]

/-- `mixer.py:164-166` -/
def mixerID : IdEnum := [(29, none), (225, some (.list .mixerParams))]

/-- `mixer.py:170-171` -/
def slotID : IdEnum := [(98, some .u16)]

/-- `project.py:114-135` -/
def projectID : IdEnum := [
  (9, some .bool), (10, some .bool), (12, some .u8), (23, some .u8), (28, some .bool), (66, none),
  (80, some .i16), (93, none), (146, some .i32), (156, some .u32), (159, some .u32), (194, none),
  (195, none), (197, none), (198, none), (199, some .ascii), (200, none), (202, none), (206, none),
  (207, none), (237, some (.struct .timestamp))]

/-- `controller.py:46-48`; that module is not imported by `pyflp/__init__.py`. -/
def controllerID : IdEnum := [(226, some (.struct .midiController)), (227, some (.struct .remoteController))]

/-- `EventEnum.__subclasses__()` after `import pyflp`: import order of the modules. -/
def enums : List IdEnum := [
  pluginID, channelID, displayGroupID, rackID, timeMarkerID, patternsID, patternID,
  arrangementsID, arrangementID, trackID, insertID, mixerID, slotID, projectID]

/-- `id in enum_` then `getattr(enum_(id), "type")` (`__init__.py:142-145`,
`_events.py:54-60`): the type attribute of the first enumeration that has `id`. -/
def enumType : List IdEnum → Nat → Option Kind
  | [], _ => none
  | e :: es, id =>
    match e.find? (fun m => m.1 == id) with
    | some m => m.2
    | none => enumType es id

/-- `NEW_TEXT_IDS` (`_events.py:46-50`). -/
def newTextIds : List Nat := [241, 231, 239]

/-- `ALLOWED_IDS` of each event class (`_events.py:170, 206, 236, 292`);
an empty sequence allows everything. -/
def Kind.allowed : Kind → Nat → Bool
  | .bool, id | .i8, id | .u8, id => id < 64
  | .i16, id | .u16, id => 64 ≤ id && id < 128
  | .f32, id | .i32, id | .u32, id | .u16t, id | .color, id => 128 ≤ id && id < 192
  | .ascii, id | .unicode, id => (192 ≤ id && id < 208) || newTextIds.contains id
  | _, _ => true

/-- `get_event_by_internal_name` (`plugin.py:1135-1139`) over the direct
subclasses of `_PluginBase` in definition order (`plugin.py:510-1132`). -/
def nativePlugins : List (PStr × Kind) := [
  (PStr.lit "Fruity Wrapper", .vst),
  (PStr.lit "BooBass", .struct .booBass),
  (PStr.lit "Fruit Kick", .struct .fruitKick),
  (PStr.lit "Fruity Balance", .struct .fruityBalance),
  (PStr.lit "Fruity Blood Overdrive", .struct .fruityBloodOverdrive),
  (PStr.lit "Fruity Center", .struct .fruityCenter),
  (PStr.lit "Fruity Fast Dist", .struct .fruityFastDist),
  (PStr.lit "Fruity NoteBook 2", .notebook),
  (PStr.lit "Fruity Send", .struct .fruitySend),
  (PStr.lit "Fruity Soft Clipper", .struct .fruitySoftClipper),
  (PStr.lit "Fruity Stereo Enhancer", .struct .fruityStereoEnhancer),
  (PStr.lit "Plucked!", .struct .plucked),
  (PStr.lit "Soundgoodizer", .struct .soundgoodizer)]

@[inherit_doc nativePlugins]
def kindByName (name : PStr) : Kind :=
  match nativePlugins.find? (fun p => p.1 == name) with
  | some p => p.2
  | none => .unknown

end PyFLP
