/-!
# What the classes of PyFLP declare

Generated by `tools/declared.py` from the text of `/repo/pyflp/*.py`: the event ids and their types (`EventEnum` classes),
the members of the flag classes (`enum.IntFlag`), the flat structs of the event classes (`STRUCT`) and the properties
declared with descriptors.  This file is independent of the model; `Props/Declared.lean` compares the two.
-/

namespace PyFLP.Declared

/-- A member of an `EventEnum` class, with the name of its event class (empty if there is none). -/
structure EventDecl where
  cls : String
  member : String
  id : Nat
  type : String
  deriving DecidableEq, Repr

/-- A member of a flag class. -/
structure FlagDecl where
  cls : String
  member : String
  value : Nat
  deriving DecidableEq, Repr

/-- Construct expressions that occur as fields. -/
inductive Con
  /-- `c.Int32ul`, `c.Flag`, …; `FourByteBool` -/
  | prim (name : String)
  /-- `c.Bytes(n)` -/
  | bytes (n : Nat)
  /-- `con[n]` -/
  | array (con : Con) (n : Nat)
  | optional (con : Con)
  /-- `c.If(condition, con)` -/
  | cond (condition : String) (con : Con)
  /-- `StdEnum[cls](con)` -/
  | stdEnum (cls : String) (con : Con)
  /-- `c.Enum(con, …)` -/
  | enum (con : Con)
  /-- another adapter -/
  | adapt (name : String) (con : Con)
  deriving DecidableEq, Repr

/-- The `STRUCT` of an event class: `greedy` if it is in a `c.GreedyRange`, `compiled` with `.compile()`. -/
structure StructDecl where
  cls : String
  greedy : Bool
  compiled : Bool
  fields : List (String × Con)
  deriving DecidableEq, Repr

/-- A property: class, attribute, descriptor, flag, event ids (enum class and member), the arguments `prop`, `inverted`,
`default` and `readonly`, and the first base class of the class. -/
structure PropDecl where
  cls : String
  attr : String
  descr : String
  flag : Option (String × String)
  events : List (String × String)
  prop : Option String
  inverted : Bool
  default : String
  readonly : Bool
  base : String
  deriving DecidableEq, Repr

/-- A `NestedProp`: class, attribute, class of the model, event ids. -/
structure NestedDecl where
  cls : String
  attr : String
  model : String
  events : List (String × String)
  deriving DecidableEq, Repr

/-- A class of plugins: its `INTERNAL_NAME` and the class of its data event. -/
structure PluginDecl where
  cls : String
  internalName : String
  type : String
  deriving DecidableEq, Repr

/-- A `PluginProp` with its classes. -/
structure ChoiceDecl where
  cls : String
  attr : String
  types : List String
  deriving DecidableEq, Repr

/-- A property of `VSTPlugin`: the class in it that declares it (empty for itself), attribute, descriptor, sub-event or
flag, `prop` and `inverted`. -/
structure VstDecl where
  cls : String
  attr : String
  descr : String
  what : String × String
  prop : Option String
  inverted : Bool
  deriving DecidableEq, Repr

/-- A class with `ModelReprMixin` and no `__repr__` of its own: the public names in its body, and what they are. -/
structure ReprDecl where
  cls : String
  names : List (String × String)
  deriving DecidableEq, Repr

/-- The members of all `EventEnum` classes. -/
def events : List EventDecl := [
  ⟨"ArrangementsID", "TimeSigNum", 17, "U8Event"⟩,
  ⟨"ArrangementsID", "TimeSigBeat", 18, "U8Event"⟩,
  ⟨"ArrangementsID", "Current", 100, "U16Event"⟩,
  ⟨"ArrangementsID", "_LoopPos", 152, "U16TupleEvent"⟩,
  ⟨"ArrangementsID", "PLSelection", 217, "PLSelectionEvent"⟩,
  ⟨"ArrangementID", "New", 99, "U16Event"⟩,
  ⟨"ArrangementID", "Name", 241, ""⟩,
  ⟨"ArrangementID", "Playlist", 233, "PlaylistEvent"⟩,
  ⟨"TrackID", "Name", 239, ""⟩,
  ⟨"TrackID", "Data", 238, "TrackEvent"⟩,
  ⟨"ChannelID", "IsEnabled", 0, "BoolEvent"⟩,
  ⟨"ChannelID", "_VolByte", 2, "U8Event"⟩,
  ⟨"ChannelID", "_PanByte", 3, "U8Event"⟩,
  ⟨"ChannelID", "Zipped", 15, "BoolEvent"⟩,
  ⟨"ChannelID", "PingPongLoop", 20, "BoolEvent"⟩,
  ⟨"ChannelID", "Type", 21, "U8Event"⟩,
  ⟨"ChannelID", "RoutedTo", 22, "I8Event"⟩,
  ⟨"ChannelID", "IsLocked", 32, "BoolEvent"⟩,
  ⟨"ChannelID", "New", 64, "U16Event"⟩,
  ⟨"ChannelID", "FreqTilt", 69, "U16Event"⟩,
  ⟨"ChannelID", "FXFlags", 70, "U16Event"⟩,
  ⟨"ChannelID", "Cutoff", 71, "U16Event"⟩,
  ⟨"ChannelID", "_VolWord", 72, "U16Event"⟩,
  ⟨"ChannelID", "_PanWord", 73, "U16Event"⟩,
  ⟨"ChannelID", "Preamp", 74, "U16Event"⟩,
  ⟨"ChannelID", "FadeOut", 75, "U16Event"⟩,
  ⟨"ChannelID", "FadeIn", 76, "U16Event"⟩,
  ⟨"ChannelID", "Resonance", 83, "U16Event"⟩,
  ⟨"ChannelID", "StereoDelay", 85, "U16Event"⟩,
  ⟨"ChannelID", "Pogo", 86, "U16Event"⟩,
  ⟨"ChannelID", "TimeShift", 89, "U16Event"⟩,
  ⟨"ChannelID", "Children", 94, "U16Event"⟩,
  ⟨"ChannelID", "Swing", 97, "U16Event"⟩,
  ⟨"ChannelID", "RingMod", 131, "U16TupleEvent"⟩,
  ⟨"ChannelID", "CutGroup", 132, "U16TupleEvent"⟩,
  ⟨"ChannelID", "RootNote", 135, "U32Event"⟩,
  ⟨"ChannelID", "DelayModXY", 138, "U16TupleEvent"⟩,
  ⟨"ChannelID", "Reverb", 139, "U32Event"⟩,
  ⟨"ChannelID", "_StretchTime", 140, "F32Event"⟩,
  ⟨"ChannelID", "FineTune", 142, "I32Event"⟩,
  ⟨"ChannelID", "SamplerFlags", 143, "U32Event"⟩,
  ⟨"ChannelID", "LayerFlags", 144, "U32Event"⟩,
  ⟨"ChannelID", "GroupNum", 145, "I32Event"⟩,
  ⟨"ChannelID", "AUSampleRate", 153, "U32Event"⟩,
  ⟨"ChannelID", "_Name", 192, ""⟩,
  ⟨"ChannelID", "SamplePath", 196, ""⟩,
  ⟨"ChannelID", "Delay", 209, "DelayEvent"⟩,
  ⟨"ChannelID", "Parameters", 215, "ParametersEvent"⟩,
  ⟨"ChannelID", "EnvelopeLFO", 218, "EnvelopeLFOEvent"⟩,
  ⟨"ChannelID", "Levels", 219, "LevelsEvent"⟩,
  ⟨"ChannelID", "Polyphony", 221, "PolyphonyEvent"⟩,
  ⟨"ChannelID", "Tracking", 228, "TrackingEvent"⟩,
  ⟨"ChannelID", "LevelAdjusts", 229, "LevelAdjustsEvent"⟩,
  ⟨"ChannelID", "Automation", 234, "AutomationEvent"⟩,
  ⟨"DisplayGroupID", "Name", 231, ""⟩,
  ⟨"RackID", "Swing", 11, "U8Event"⟩,
  ⟨"RackID", "_FitToSteps", 13, "U8Event"⟩,
  ⟨"RackID", "WindowHeight", 133, "U32Event"⟩,
  ⟨"ControllerID", "MIDI", 226, "MIDIControllerEvent"⟩,
  ⟨"ControllerID", "Remote", 227, "RemoteControllerEvent"⟩,
  ⟨"InsertID", "Icon", 95, "I16Event"⟩,
  ⟨"InsertID", "Output", 147, "I32Event"⟩,
  ⟨"InsertID", "Color", 149, "ColorEvent"⟩,
  ⟨"InsertID", "Input", 154, "I32Event"⟩,
  ⟨"InsertID", "Name", 204, ""⟩,
  ⟨"InsertID", "Routing", 235, "InsertRoutingEvent"⟩,
  ⟨"InsertID", "Flags", 236, "InsertFlagsEvent"⟩,
  ⟨"MixerID", "APDC", 29, ""⟩,
  ⟨"MixerID", "Params", 225, "MixerParamsEvent"⟩,
  ⟨"SlotID", "Index", 98, "U16Event"⟩,
  ⟨"PatternsID", "PlayTruncatedNotes", 30, "BoolEvent"⟩,
  ⟨"PatternsID", "CurrentlySelected", 67, "U16Event"⟩,
  ⟨"PatternID", "Looped", 26, "BoolEvent"⟩,
  ⟨"PatternID", "New", 65, "U16Event"⟩,
  ⟨"PatternID", "Color", 150, "ColorEvent"⟩,
  ⟨"PatternID", "Name", 193, ""⟩,
  ⟨"PatternID", "ChannelIID", 160, "U32Event"⟩,
  ⟨"PatternID", "_161", 161, "I32Event"⟩,
  ⟨"PatternID", "_162", 162, "U32Event"⟩,
  ⟨"PatternID", "Length", 164, "U32Event"⟩,
  ⟨"PatternID", "Controllers", 223, "ControllerEvent"⟩,
  ⟨"PatternID", "Notes", 224, "NotesEvent"⟩,
  ⟨"PluginID", "Color", 128, "ColorEvent"⟩,
  ⟨"PluginID", "Icon", 155, "U32Event"⟩,
  ⟨"PluginID", "InternalName", 201, ""⟩,
  ⟨"PluginID", "Name", 203, ""⟩,
  ⟨"PluginID", "Wrapper", 212, "WrapperEvent"⟩,
  ⟨"PluginID", "Data", 213, ""⟩,
  ⟨"ProjectID", "LoopActive", 9, "BoolEvent"⟩,
  ⟨"ProjectID", "ShowInfo", 10, "BoolEvent"⟩,
  ⟨"ProjectID", "_Volume", 12, "U8Event"⟩,
  ⟨"ProjectID", "PanLaw", 23, "U8Event"⟩,
  ⟨"ProjectID", "Licensed", 28, "BoolEvent"⟩,
  ⟨"ProjectID", "_TempoCoarse", 66, ""⟩,
  ⟨"ProjectID", "Pitch", 80, "I16Event"⟩,
  ⟨"ProjectID", "_TempoFine", 93, ""⟩,
  ⟨"ProjectID", "CurGroupId", 146, "I32Event"⟩,
  ⟨"ProjectID", "Tempo", 156, "U32Event"⟩,
  ⟨"ProjectID", "FLBuild", 159, "U32Event"⟩,
  ⟨"ProjectID", "Title", 194, ""⟩,
  ⟨"ProjectID", "Comments", 195, ""⟩,
  ⟨"ProjectID", "Url", 197, ""⟩,
  ⟨"ProjectID", "_RTFComments", 198, ""⟩,
  ⟨"ProjectID", "FLVersion", 199, "AsciiEvent"⟩,
  ⟨"ProjectID", "Licensee", 200, ""⟩,
  ⟨"ProjectID", "DataPath", 202, ""⟩,
  ⟨"ProjectID", "Genre", 206, ""⟩,
  ⟨"ProjectID", "Artists", 207, ""⟩,
  ⟨"ProjectID", "Timestamp", 237, "TimestampEvent"⟩,
  ⟨"TimeMarkerID", "Numerator", 33, "U8Event"⟩,
  ⟨"TimeMarkerID", "Denominator", 34, "U8Event"⟩,
  ⟨"TimeMarkerID", "Position", 148, "U32Event"⟩,
  ⟨"TimeMarkerID", "Name", 205, ""⟩]

/-- The members of all flag classes. -/
def flags : List FlagDecl := [
  ⟨"_EnvLFOFlags", "EnvelopeTempoSync", 1⟩,
  ⟨"_EnvLFOFlags", "Unknown", 4⟩,
  ⟨"_EnvLFOFlags", "LFOTempoSync", 2⟩,
  ⟨"_EnvLFOFlags", "LFOPhaseRetrig", 32⟩,
  ⟨"_DelayFlags", "PingPong", 2⟩,
  ⟨"_DelayFlags", "FatMode", 4⟩,
  ⟨"_PolyphonyFlags", "None_", 0⟩,
  ⟨"_PolyphonyFlags", "Mono", 1⟩,
  ⟨"_PolyphonyFlags", "Porta", 2⟩,
  ⟨"_FXFlags", "FadeStereo", 1⟩,
  ⟨"_FXFlags", "Reverse", 2⟩,
  ⟨"_FXFlags", "Clip", 4⟩,
  ⟨"_FXFlags", "SwapStereo", 256⟩,
  ⟨"_LayerFlags", "Random", 1⟩,
  ⟨"_LayerFlags", "Crossfade", 2⟩,
  ⟨"_SamplerFlags", "Resample", 1⟩,
  ⟨"_SamplerFlags", "LoadRegions", 2⟩,
  ⟨"_SamplerFlags", "LoadSliceMarkers", 4⟩,
  ⟨"_SamplerFlags", "UsesLoopPoints", 8⟩,
  ⟨"_SamplerFlags", "KeepOnDisk", 256⟩,
  ⟨"_InsertFlags", "None_", 0⟩,
  ⟨"_InsertFlags", "PolarityReversed", 1⟩,
  ⟨"_InsertFlags", "SwapLeftRight", 2⟩,
  ⟨"_InsertFlags", "EnableEffects", 4⟩,
  ⟨"_InsertFlags", "Enabled", 8⟩,
  ⟨"_InsertFlags", "DisableThreadedProcessing", 16⟩,
  ⟨"_InsertFlags", "U5", 32⟩,
  ⟨"_InsertFlags", "DockMiddle", 64⟩,
  ⟨"_InsertFlags", "DockRight", 128⟩,
  ⟨"_InsertFlags", "U8", 256⟩,
  ⟨"_InsertFlags", "U9", 512⟩,
  ⟨"_InsertFlags", "SeparatorShown", 1024⟩,
  ⟨"_InsertFlags", "Locked", 2048⟩,
  ⟨"_InsertFlags", "Solo", 4096⟩,
  ⟨"_InsertFlags", "U13", 8192⟩,
  ⟨"_InsertFlags", "U14", 16384⟩,
  ⟨"_InsertFlags", "AudioTrack", 32768⟩,
  ⟨"_NoteFlags", "Slide", 8⟩,
  ⟨"_WrapperFlags", "Visible", 1⟩,
  ⟨"_WrapperFlags", "_Disabled", 2⟩,
  ⟨"_WrapperFlags", "Detached", 4⟩,
  ⟨"_WrapperFlags", "Generator", 16⟩,
  ⟨"_WrapperFlags", "SmartDisable", 32⟩,
  ⟨"_WrapperFlags", "ThreadedProcessing", 64⟩,
  ⟨"_WrapperFlags", "DemoMode", 128⟩,
  ⟨"_WrapperFlags", "HideSettings", 256⟩,
  ⟨"_WrapperFlags", "Minimized", 512⟩,
  ⟨"_WrapperFlags", "_DirectX", 65536⟩,
  ⟨"_WrapperFlags", "_EditorSize", 131072⟩,
  ⟨"_VSTFlags", "SendPBRange", 1⟩,
  ⟨"_VSTFlags", "FixedSizeBuffers", 2⟩,
  ⟨"_VSTFlags", "NotifyRender", 4⟩,
  ⟨"_VSTFlags", "ProcessInactive", 8⟩,
  ⟨"_VSTFlags", "DontSendRelVelo", 32⟩,
  ⟨"_VSTFlags", "DontNotifyChanges", 64⟩,
  ⟨"_VSTFlags", "SendLoopPos", 2048⟩,
  ⟨"_VSTFlags", "AllowThreaded", 4096⟩,
  ⟨"_VSTFlags", "KeepFocus", 32768⟩,
  ⟨"_VSTFlags", "DontKeepCPUState", 65536⟩,
  ⟨"_VSTFlags", "SendModX", 131072⟩,
  ⟨"_VSTFlags", "LoadBridged", 262144⟩,
  ⟨"_VSTFlags", "ExternalWindow", 2097152⟩,
  ⟨"_VSTFlags", "UpdateWhenHidden", 8388608⟩,
  ⟨"_VSTFlags", "DontResetOnTransport", 33554432⟩,
  ⟨"_VSTFlags", "DPIAwareBridged", 67108864⟩,
  ⟨"_VSTFlags", "AcceptFileDrop", 268435456⟩,
  ⟨"_VSTFlags", "AllowSmartDisable", 536870912⟩,
  ⟨"_VSTFlags", "ScaleEditor", 1073741824⟩,
  ⟨"_VSTFlags", "DontUseTimeOffset", 2147483648⟩,
  ⟨"_VSTFlags2", "ProcessMaxSize", 1⟩,
  ⟨"_VSTFlags2", "UseMaxFromHost", 2⟩]

/-- The flat structs. -/
def structs : List StructDecl := [
  ⟨"PLSelectionEvent", false, true, [
      ("start", .optional (.prim "Int32ul")),
      ("end", .optional (.prim "Int32ul"))]⟩,
  ⟨"PlaylistEvent", true, false, [
      ("position", .prim "Int32ul"),
      ("pattern_base", .prim "Int16ul"),
      ("item_index", .prim "Int16ul"),
      ("length", .prim "Int32ul"),
      ("track_rvidx", .prim "Int16ul"),
      ("group", .prim "Int16ul"),
      ("_u1", .bytes 2),
      ("item_flags", .prim "Int16ul"),
      ("_u2", .bytes 4),
      ("start_offset", .prim "Float32l"),
      ("end_offset", .prim "Float32l"),
      ("_u3", .cond "c.this._params[new]" (.bytes 28))]⟩,
  ⟨"TrackEvent", false, true, [
      ("iid", .optional (.prim "Int32ul")),
      ("color", .optional (.prim "Int32ul")),
      ("icon", .optional (.prim "Int32ul")),
      ("enabled", .optional (.prim "Flag")),
      ("height", .optional (.adapt "HeightAdapter" (.prim "Float32l"))),
      ("locked_height", .optional (.prim "Int32sl")),
      ("content_locked", .optional (.prim "Flag")),
      ("motion", .optional (.stdEnum "TrackMotion" (.prim "Int32ul"))),
      ("press", .optional (.stdEnum "TrackPress" (.prim "Int32ul"))),
      ("trigger_sync", .optional (.stdEnum "TrackSync" (.prim "Int32ul"))),
      ("queued", .optional (.prim "FourByteBool")),
      ("tolerant", .optional (.prim "FourByteBool")),
      ("position_sync", .optional (.stdEnum "TrackSync" (.prim "Int32ul"))),
      ("grouped", .optional (.prim "Flag")),
      ("locked", .optional (.prim "Flag")),
      ("_u1", .optional (.prim "GreedyBytes"))]⟩,
  ⟨"DelayEvent", false, true, [
      ("feedback", .optional (.prim "Int32ul")),
      ("pan", .optional (.prim "Int32sl")),
      ("pitch_shift", .optional (.prim "Int32sl")),
      ("echoes", .optional (.prim "Int32ul")),
      ("time", .optional (.prim "Int32ul"))]⟩,
  ⟨"EnvelopeLFOEvent", false, true, [
      ("flags", .optional (.stdEnum "_EnvLFOFlags" (.prim "Int32sl"))),
      ("envelope.enabled", .optional (.prim "Int32sl")),
      ("envelope.predelay", .optional (.prim "Int32sl")),
      ("envelope.attack", .optional (.prim "Int32sl")),
      ("envelope.hold", .optional (.prim "Int32sl")),
      ("envelope.decay", .optional (.prim "Int32sl")),
      ("envelope.sustain", .optional (.prim "Int32sl")),
      ("envelope.release", .optional (.prim "Int32sl")),
      ("envelope.amount", .optional (.prim "Int32sl")),
      ("lfo.predelay", .optional (.prim "Int32ul")),
      ("lfo.attack", .optional (.prim "Int32ul")),
      ("lfo.amount", .optional (.prim "Int32sl")),
      ("lfo.speed", .optional (.prim "Int32ul")),
      ("lfo.shape", .optional (.stdEnum "LFOShape" (.prim "Int32sl"))),
      ("envelope.attack_tension", .optional (.prim "Int32sl")),
      ("envelope.decay_tension", .optional (.prim "Int32sl")),
      ("envelope.release_tension", .optional (.prim "Int32sl"))]⟩,
  ⟨"LevelAdjustsEvent", false, true, [
      ("pan", .optional (.prim "Int32sl")),
      ("volume", .optional (.prim "Int32ul")),
      ("_u1", .optional (.prim "Int32ul")),
      ("mod_x", .optional (.prim "Int32sl")),
      ("mod_y", .optional (.prim "Int32sl"))]⟩,
  ⟨"LevelsEvent", false, true, [
      ("pan", .optional (.prim "Int32sl")),
      ("volume", .optional (.prim "Int32ul")),
      ("pitch_shift", .optional (.prim "Int32sl")),
      ("filter.mod_x", .optional (.prim "Int32ul")),
      ("filter.mod_y", .optional (.prim "Int32ul")),
      ("filter.type", .optional (.stdEnum "FilterType" (.prim "Int32ul")))]⟩,
  ⟨"ParametersEvent", false, false, [
      ("_u1", .optional (.bytes 9)),
      ("fx.remove_dc", .optional (.prim "Flag")),
      ("delay.flags", .optional (.stdEnum "_DelayFlags" (.prim "Int8ul"))),
      ("keyboard.main_pitch", .optional (.prim "Flag")),
      ("_u2", .optional (.bytes 28)),
      ("arp.direction", .optional (.stdEnum "ArpDirection" (.prim "Int32ul"))),
      ("arp.range", .optional (.prim "Int32ul")),
      ("arp.chord", .optional (.prim "Int32ul")),
      ("arp.time", .optional (.prim "Float32l")),
      ("arp.gate", .optional (.prim "Float32l")),
      ("arp.slide", .optional (.prim "Flag")),
      ("_u3", .optional (.bytes 1)),
      ("time.full_porta", .optional (.prim "Flag")),
      ("keyboard.add_root", .optional (.prim "Flag")),
      ("time.gate", .optional (.prim "Int16ul")),
      ("_u4", .optional (.bytes 2)),
      ("keyboard.key_region", .optional (.adapt "List2Tuple" (.array (.prim "Int32ul") 2))),
      ("_u5", .optional (.bytes 4)),
      ("fx.normalize", .optional (.prim "Flag")),
      ("fx.inverted", .optional (.prim "Flag")),
      ("_u6", .optional (.bytes 1)),
      ("content.declick_mode", .optional (.stdEnum "DeclickMode" (.prim "Int8ul"))),
      ("fx.crossfade", .optional (.prim "Int32ul")),
      ("fx.trim", .optional (.prim "Int32ul")),
      ("arp.repeat", .optional (.prim "Int32ul")),
      ("stretching.time", .optional (.adapt "LinearMusical" (.prim "Int32ul"))),
      ("stretching.pitch", .optional (.prim "Int32sl")),
      ("stretching.multiplier", .optional (.adapt "Log2(10000)" (.prim "Int32sl"))),
      ("stretching.mode", .optional (.stdEnum "StretchMode" (.prim "Int32sl"))),
      ("_u7", .optional (.bytes 21)),
      ("fx.start", .optional (.adapt "LogNormal((0, 61440))" (.array (.prim "Int16ul") 2))),
      ("_u8", .optional (.bytes 4)),
      ("fx.length", .optional (.adapt "LogNormal((0, 61440))" (.array (.prim "Int16ul") 2))),
      ("_u9", .optional (.bytes 3)),
      ("playback.start_offset", .optional (.prim "Int32ul")),
      ("_u10", .optional (.bytes 5)),
      ("fx.fix_trim", .optional (.prim "Flag")),
      ("_extra", .prim "GreedyBytes")]⟩,
  ⟨"PolyphonyEvent", false, true, [
      ("max", .optional (.prim "Int32ul")),
      ("slide", .optional (.prim "Int32ul")),
      ("flags", .optional (.stdEnum "_PolyphonyFlags" (.prim "Byte")))]⟩,
  ⟨"TrackingEvent", false, true, [
      ("middle_value", .optional (.prim "Int32ul")),
      ("pan", .optional (.prim "Int32sl")),
      ("mod_x", .optional (.prim "Int32sl")),
      ("mod_y", .optional (.prim "Int32sl"))]⟩,
  ⟨"MIDIControllerEvent", false, false, [
      ("_u1", .prim "GreedyBytes")]⟩,
  ⟨"RemoteControllerEvent", false, true, [
      ("_u1", .optional (.bytes 2)),
      ("_u2", .optional (.prim "Byte")),
      ("_u3", .optional (.prim "Byte")),
      ("parameter_data", .optional (.prim "Int16ul")),
      ("destination_data", .optional (.prim "Int16sl")),
      ("_u4", .optional (.bytes 8)),
      ("_u5", .optional (.bytes 4))]⟩,
  ⟨"InsertFlagsEvent", false, true, [
      ("_u1", .optional (.bytes 4)),
      ("flags", .optional (.stdEnum "_InsertFlags" (.prim "Int32ul"))),
      ("_u2", .optional (.bytes 4))]⟩,
  ⟨"MixerParamsEvent", true, false, [
      ("_u4", .bytes 4),
      ("id", .stdEnum "_MixerParamsID" (.prim "Byte")),
      ("_u1", .prim "Byte"),
      ("channel_data", .prim "Int16ul"),
      ("msg", .prim "Int32sl")]⟩,
  ⟨"ControllerEvent", true, false, [
      ("position", .prim "Int32ul"),
      ("_u1", .prim "Byte"),
      ("_u2", .prim "Byte"),
      ("channel", .prim "Int8ul"),
      ("_flags", .prim "Int8ul"),
      ("value", .prim "Float32l")]⟩,
  ⟨"NotesEvent", true, false, [
      ("position", .prim "Int32ul"),
      ("flags", .stdEnum "_NoteFlags" (.prim "Int16ul")),
      ("rack_channel", .prim "Int16ul"),
      ("length", .prim "Int32ul"),
      ("key", .prim "Int16ul"),
      ("group", .prim "Int16ul"),
      ("fine_pitch", .prim "Int8ul"),
      ("_u1", .prim "Byte"),
      ("release", .prim "Int8ul"),
      ("midi_channel", .prim "Int8ul"),
      ("pan", .prim "Int8ul"),
      ("velocity", .prim "Int8ul"),
      ("mod_x", .prim "Int8ul"),
      ("mod_y", .prim "Int8ul")]⟩,
  ⟨"BooBassEvent", false, true, [
      ("_u1", .cond "c.this._.len == 16" (.bytes 4)),
      ("bass", .prim "Int32ul"),
      ("mid", .prim "Int32ul"),
      ("high", .prim "Int32ul")]⟩,
  ⟨"FruitKickEvent", false, true, [
      ("_u1", .bytes 4),
      ("max_freq", .prim "Int32sl"),
      ("min_freq", .prim "Int32sl"),
      ("freq_decay", .prim "Int32ul"),
      ("amp_decay", .prim "Int32ul"),
      ("click", .prim "Int32ul"),
      ("distortion", .prim "Int32ul"),
      ("_u2", .bytes 4)]⟩,
  ⟨"FruityBalanceEvent", false, true, [
      ("pan", .prim "Int32ul"),
      ("volume", .prim "Int32ul")]⟩,
  ⟨"FruityBloodOverdriveEvent", false, true, [
      ("plugin_marker", .cond "c.this._.len == 36" (.bytes 4)),
      ("pre_band", .prim "Int32ul"),
      ("color", .prim "Int32ul"),
      ("pre_amp", .prim "Int32ul"),
      ("x100", .prim "FourByteBool"),
      ("post_filter", .prim "Int32ul"),
      ("post_gain", .prim "Int32ul"),
      ("_u1", .bytes 4),
      ("_u2", .bytes 4)]⟩,
  ⟨"FruityCenterEvent", false, true, [
      ("_u1", .cond "c.this._.len == 8" (.bytes 4)),
      ("enabled", .prim "FourByteBool")]⟩,
  ⟨"FruityFastDistEvent", false, true, [
      ("pre", .prim "Int32ul"),
      ("threshold", .prim "Int32ul"),
      ("kind", .enum (.prim "Int32ul")),
      ("mix", .prim "Int32ul"),
      ("post", .prim "Int32ul")]⟩,
  ⟨"FruitySendEvent", false, true, [
      ("pan", .prim "Int32sl"),
      ("dry", .prim "Int32ul"),
      ("volume", .prim "Int32ul"),
      ("send_to", .prim "Int32sl")]⟩,
  ⟨"FruitySoftClipperEvent", false, true, [
      ("threshold", .prim "Int32ul"),
      ("post", .prim "Int32ul")]⟩,
  ⟨"FruityStereoEnhancerEvent", false, true, [
      ("pan", .prim "Int32sl"),
      ("volume", .prim "Int32ul"),
      ("stereo_separation", .prim "Int32ul"),
      ("phase_offset", .prim "Int32ul"),
      ("effect_position", .enum (.prim "Int32ul")),
      ("phase_inversion", .enum (.prim "Int32ul"))]⟩,
  ⟨"PluckedEvent", false, true, [
      ("decay", .prim "Int32ul"),
      ("color", .prim "Int32ul"),
      ("normalize", .prim "FourByteBool"),
      ("gate", .prim "FourByteBool"),
      ("widen", .prim "FourByteBool")]⟩,
  ⟨"SoundgoodizerEvent", false, true, [
      ("_u1", .cond "c.this._.len == 12" (.bytes 4)),
      ("mode", .enum (.prim "Int32ul")),
      ("amount", .prim "Int32ul")]⟩,
  ⟨"WrapperEvent", false, true, [
      ("_u1", .optional (.bytes 16)),
      ("flags", .optional (.stdEnum "_WrapperFlags" (.prim "Int16ul"))),
      ("_u2", .optional (.bytes 2)),
      ("page", .optional (.stdEnum "WrapperPage" (.prim "Int8ul"))),
      ("_u3", .optional (.bytes 23)),
      ("width", .optional (.prim "Int32ul")),
      ("height", .optional (.prim "Int32ul")),
      ("_extra", .prim "GreedyBytes")]⟩,
  ⟨"TimestampEvent", false, true, [
      ("created_on", .prim "Float64l"),
      ("time_spent", .prim "Float64l")]⟩]

/-- The properties. -/
def props : List PropDecl := [
  ⟨"PLItemBase", "group", "StructProp", none, [], none, false, "", false, "ItemModel[PlaylistEvent]"⟩,
  ⟨"PLItemBase", "length", "StructProp", none, [], none, false, "", false, "ItemModel[PlaylistEvent]"⟩,
  ⟨"PLItemBase", "muted", "StructProp", none, [], none, false, "", false, "ItemModel[PlaylistEvent]"⟩,
  ⟨"PLItemBase", "position", "StructProp", none, [], none, false, "", false, "ItemModel[PlaylistEvent]"⟩,
  ⟨"Track", "content_locked", "StructProp", none, [("TrackID", "Data")], none, false, "", false, "EventModel"⟩,
  ⟨"Track", "enabled", "StructProp", none, [("TrackID", "Data")], none, false, "", false, "EventModel"⟩,
  ⟨"Track", "grouped", "StructProp", none, [("TrackID", "Data")], none, false, "", false, "EventModel"⟩,
  ⟨"Track", "height", "StructProp", none, [("TrackID", "Data")], none, false, "", false, "EventModel"⟩,
  ⟨"Track", "icon", "StructProp", none, [("TrackID", "Data")], none, false, "", false, "EventModel"⟩,
  ⟨"Track", "iid", "StructProp", none, [("TrackID", "Data")], none, false, "", false, "EventModel"⟩,
  ⟨"Track", "locked", "StructProp", none, [("TrackID", "Data")], none, false, "", false, "EventModel"⟩,
  ⟨"Track", "motion", "StructProp", none, [("TrackID", "Data")], none, false, "", false, "EventModel"⟩,
  ⟨"Track", "name", "EventProp", none, [("TrackID", "Name")], none, false, "", false, "EventModel"⟩,
  ⟨"Track", "position_sync", "StructProp", none, [("TrackID", "Data")], none, false, "", false, "EventModel"⟩,
  ⟨"Track", "press", "StructProp", none, [("TrackID", "Data")], none, false, "", false, "EventModel"⟩,
  ⟨"Track", "tolerant", "StructProp", none, [("TrackID", "Data")], none, false, "", false, "EventModel"⟩,
  ⟨"Track", "trigger_sync", "StructProp", none, [("TrackID", "Data")], none, false, "", false, "EventModel"⟩,
  ⟨"Track", "queued", "StructProp", none, [("TrackID", "Data")], none, false, "", false, "EventModel"⟩,
  ⟨"Arrangement", "iid", "EventProp", none, [("ArrangementID", "New")], none, false, "", false, "EventModel"⟩,
  ⟨"Arrangement", "name", "EventProp", none, [("ArrangementID", "Name")], none, false, "", false, "EventModel"⟩,
  ⟨"TimeSignature", "num", "EventProp", none, [("ArrangementsID", "TimeSigNum")], none, false, "", false, "EventModel"⟩,
  ⟨"TimeSignature", "beat", "EventProp", none, [("ArrangementsID", "TimeSigBeat")], none, false, "", false, "EventModel"⟩,
  ⟨"DisplayGroup", "name", "EventProp", none, [("DisplayGroupID", "Name")], none, false, "", false, "EventModel"⟩,
  ⟨"Arp", "chord", "StructProp", none, [], none, false, "", false, "EventModel"⟩,
  ⟨"Arp", "direction", "StructProp", none, [], none, false, "", false, "EventModel"⟩,
  ⟨"Arp", "gate", "StructProp", none, [], none, false, "", false, "EventModel"⟩,
  ⟨"Arp", "range", "StructProp", none, [], none, false, "", false, "EventModel"⟩,
  ⟨"Arp", "repeat", "StructProp", none, [], none, false, "", false, "EventModel"⟩,
  ⟨"Arp", "slide", "StructProp", none, [], none, false, "", false, "EventModel"⟩,
  ⟨"Arp", "time", "StructProp", none, [], none, false, "", false, "EventModel"⟩,
  ⟨"Delay", "echoes", "StructProp", none, [("ChannelID", "Delay")], none, false, "", false, "EventModel"⟩,
  ⟨"Delay", "fat_mode", "FlagProp", (some ("_DelayFlags", "FatMode")), [("ChannelID", "Parameters")], (some "delay.flags"), false, "", false, "EventModel"⟩,
  ⟨"Delay", "feedback", "StructProp", none, [("ChannelID", "Delay")], none, false, "", false, "EventModel"⟩,
  ⟨"Delay", "pan", "StructProp", none, [("ChannelID", "Delay")], none, false, "", false, "EventModel"⟩,
  ⟨"Delay", "ping_pong", "FlagProp", (some ("_DelayFlags", "PingPong")), [("ChannelID", "Parameters")], (some "delay.flags"), false, "", false, "EventModel"⟩,
  ⟨"Delay", "pitch_shift", "StructProp", none, [("ChannelID", "Delay")], none, false, "", false, "EventModel"⟩,
  ⟨"Delay", "time", "StructProp", none, [("ChannelID", "Delay")], none, false, "", false, "EventModel"⟩,
  ⟨"Filter", "mod_x", "StructProp", none, [("ChannelID", "Levels")], (some "filter.mod_x"), false, "", false, "EventModel"⟩,
  ⟨"Filter", "mod_y", "StructProp", none, [("ChannelID", "Levels")], (some "filter.mod_y"), false, "", false, "EventModel"⟩,
  ⟨"Filter", "type", "StructProp", none, [("ChannelID", "Levels")], (some "filter.type"), false, "", false, "EventModel"⟩,
  ⟨"LevelAdjusts", "mod_x", "StructProp", none, [], none, false, "", false, "EventModel"⟩,
  ⟨"LevelAdjusts", "mod_y", "StructProp", none, [], none, false, "", false, "EventModel"⟩,
  ⟨"LevelAdjusts", "pan", "StructProp", none, [], none, false, "", false, "EventModel"⟩,
  ⟨"LevelAdjusts", "volume", "StructProp", none, [], none, false, "", false, "EventModel"⟩,
  ⟨"Time", "swing", "EventProp", none, [("ChannelID", "Swing")], none, false, "", false, "EventModel"⟩,
  ⟨"Time", "gate", "StructProp", none, [("ChannelID", "Parameters")], (some "time.gate"), false, "", false, "EventModel"⟩,
  ⟨"Time", "shift", "EventProp", none, [("ChannelID", "TimeShift")], none, false, "", false, "EventModel"⟩,
  ⟨"Time", "full_porta", "StructProp", none, [("ChannelID", "Parameters")], (some "time.full_porta"), false, "", false, "EventModel"⟩,
  ⟨"FX", "boost", "EventProp", none, [("ChannelID", "Preamp")], none, false, "", false, "EventModel"⟩,
  ⟨"FX", "clip", "FlagProp", (some ("_FXFlags", "Clip")), [("ChannelID", "FXFlags")], none, false, "", false, "EventModel"⟩,
  ⟨"FX", "crossfade", "StructProp", none, [("ChannelID", "Parameters")], (some "fx.crossfade"), false, "", false, "EventModel"⟩,
  ⟨"FX", "cutoff", "EventProp", none, [("ChannelID", "Cutoff")], none, false, "", false, "EventModel"⟩,
  ⟨"FX", "fade_in", "EventProp", none, [("ChannelID", "FadeIn")], none, false, "", false, "EventModel"⟩,
  ⟨"FX", "fade_out", "EventProp", none, [("ChannelID", "FadeOut")], none, false, "", false, "EventModel"⟩,
  ⟨"FX", "fade_stereo", "FlagProp", (some ("_FXFlags", "FadeStereo")), [("ChannelID", "FXFlags")], none, false, "", false, "EventModel"⟩,
  ⟨"FX", "fix_trim", "StructProp", none, [("ChannelID", "Parameters")], (some "fx.fix_trim"), false, "", false, "EventModel"⟩,
  ⟨"FX", "freq_tilt", "EventProp", none, [("ChannelID", "FreqTilt")], none, false, "", false, "EventModel"⟩,
  ⟨"FX", "inverted", "StructProp", none, [("ChannelID", "Parameters")], (some "fx.inverted"), false, "", false, "EventModel"⟩,
  ⟨"FX", "length", "StructProp", none, [("ChannelID", "Parameters")], (some "fx.length"), false, "", false, "EventModel"⟩,
  ⟨"FX", "normalize", "StructProp", none, [("ChannelID", "Parameters")], (some "fx.normalize"), false, "", false, "EventModel"⟩,
  ⟨"FX", "pogo", "EventProp", none, [("ChannelID", "Pogo")], none, false, "", false, "EventModel"⟩,
  ⟨"FX", "remove_dc", "StructProp", none, [("ChannelID", "Parameters")], (some "fx.remove_dc"), false, "", false, "EventModel"⟩,
  ⟨"FX", "resonance", "EventProp", none, [("ChannelID", "Resonance")], none, false, "", false, "EventModel"⟩,
  ⟨"FX", "reverse", "FlagProp", (some ("_FXFlags", "Reverse")), [("ChannelID", "FXFlags")], none, false, "", false, "EventModel"⟩,
  ⟨"FX", "ringmod", "EventProp", none, [("ChannelID", "RingMod")], none, false, "", false, "EventModel"⟩,
  ⟨"FX", "start", "StructProp", none, [("ChannelID", "Parameters")], (some "fx.start"), false, "", false, "EventModel"⟩,
  ⟨"FX", "stereo_delay", "EventProp", none, [("ChannelID", "StereoDelay")], none, false, "", false, "EventModel"⟩,
  ⟨"FX", "swap_stereo", "FlagProp", (some ("_FXFlags", "SwapStereo")), [("ChannelID", "FXFlags")], none, false, "", false, "EventModel"⟩,
  ⟨"FX", "trim", "StructProp", none, [("ChannelID", "Parameters")], (some "fx.trim"), false, "", false, "EventModel"⟩,
  ⟨"Envelope", "enabled", "StructProp", none, [], (some "envelope.enabled"), false, "", false, "EventModel"⟩,
  ⟨"Envelope", "predelay", "StructProp", none, [], (some "envelope.predelay"), false, "", false, "EventModel"⟩,
  ⟨"Envelope", "amount", "StructProp", none, [], (some "envelope.amount"), false, "", false, "EventModel"⟩,
  ⟨"Envelope", "attack", "StructProp", none, [], (some "envelope.attack"), false, "", false, "EventModel"⟩,
  ⟨"Envelope", "hold", "StructProp", none, [], (some "envelope.hold"), false, "", false, "EventModel"⟩,
  ⟨"Envelope", "decay", "StructProp", none, [], (some "envelope.decay"), false, "", false, "EventModel"⟩,
  ⟨"Envelope", "sustain", "StructProp", none, [], (some "envelope.sustain"), false, "", false, "EventModel"⟩,
  ⟨"Envelope", "release", "StructProp", none, [], (some "envelope.release"), false, "", false, "EventModel"⟩,
  ⟨"Envelope", "synced", "FlagProp", (some ("_EnvLFOFlags", "EnvelopeTempoSync")), [], none, false, "", false, "EventModel"⟩,
  ⟨"Envelope", "attack_tension", "StructProp", none, [], (some "envelope.attack_tension"), false, "", false, "EventModel"⟩,
  ⟨"Envelope", "decay_tension", "StructProp", none, [], (some "envelope.decay_tension"), false, "", false, "EventModel"⟩,
  ⟨"Envelope", "release_tension", "StructProp", none, [], (some "envelope.release_tension"), false, "", false, "EventModel"⟩,
  ⟨"SamplerLFO", "amount", "StructProp", none, [], (some "lfo.amount"), false, "", false, "EventModel"⟩,
  ⟨"SamplerLFO", "attack", "StructProp", none, [], (some "lfo.attack"), false, "", false, "EventModel"⟩,
  ⟨"SamplerLFO", "predelay", "StructProp", none, [], (some "lfo.predelay"), false, "", false, "EventModel"⟩,
  ⟨"SamplerLFO", "speed", "StructProp", none, [], (some "lfo.speed"), false, "", false, "EventModel"⟩,
  ⟨"SamplerLFO", "synced", "FlagProp", (some ("_EnvLFOFlags", "LFOTempoSync")), [], none, false, "", false, "EventModel"⟩,
  ⟨"SamplerLFO", "retrig", "FlagProp", (some ("_EnvLFOFlags", "LFOPhaseRetrig")), [], none, false, "", false, "EventModel"⟩,
  ⟨"SamplerLFO", "shape", "StructProp", none, [], (some "lfo.shape"), false, "", false, "EventModel"⟩,
  ⟨"Polyphony", "mono", "FlagProp", (some ("_PolyphonyFlags", "Mono")), [], none, false, "", false, "EventModel"⟩,
  ⟨"Polyphony", "porta", "FlagProp", (some ("_PolyphonyFlags", "Porta")), [], none, false, "", false, "EventModel"⟩,
  ⟨"Polyphony", "max", "StructProp", none, [], none, false, "", false, "EventModel"⟩,
  ⟨"Polyphony", "slide", "StructProp", none, [], none, false, "", false, "EventModel"⟩,
  ⟨"Tracking", "middle_value", "StructProp", none, [], none, false, "", false, "EventModel"⟩,
  ⟨"Tracking", "mod_x", "StructProp", none, [], none, false, "", false, "EventModel"⟩,
  ⟨"Tracking", "mod_y", "StructProp", none, [], none, false, "", false, "EventModel"⟩,
  ⟨"Tracking", "pan", "StructProp", none, [], none, false, "", false, "EventModel"⟩,
  ⟨"Keyboard", "fine_tune", "EventProp", none, [("ChannelID", "FineTune")], none, false, "", false, "EventModel"⟩,
  ⟨"Keyboard", "root_note", "EventProp", none, [("ChannelID", "RootNote")], none, false, "60", false, "EventModel"⟩,
  ⟨"Keyboard", "main_pitch", "StructProp", none, [("ChannelID", "Parameters")], (some "keyboard.main_pitch"), false, "", false, "EventModel"⟩,
  ⟨"Keyboard", "add_root", "StructProp", none, [("ChannelID", "Parameters")], (some "keyboard.add_root"), false, "", false, "EventModel"⟩,
  ⟨"Keyboard", "key_region", "StructProp", none, [("ChannelID", "Parameters")], (some "keyboard.key_region"), false, "", false, "EventModel"⟩,
  ⟨"Playback", "ping_pong_loop", "EventProp", none, [("ChannelID", "PingPongLoop")], none, false, "", false, "EventModel"⟩,
  ⟨"Playback", "start_offset", "StructProp", none, [("ChannelID", "Parameters")], (some "playback.start_offset"), false, "", false, "EventModel"⟩,
  ⟨"Playback", "use_loop_points", "FlagProp", (some ("_SamplerFlags", "UsesLoopPoints")), [("ChannelID", "SamplerFlags")], none, false, "", false, "EventModel"⟩,
  ⟨"TimeStretching", "mode", "StructProp", none, [("ChannelID", "Parameters")], (some "stretching.mode"), false, "", false, "EventModel"⟩,
  ⟨"TimeStretching", "multiplier", "StructProp", none, [("ChannelID", "Parameters")], (some "stretching.multiplier"), false, "", false, "EventModel"⟩,
  ⟨"TimeStretching", "pitch", "StructProp", none, [("ChannelID", "Parameters")], (some "stretching.pitch"), false, "", false, "EventModel"⟩,
  ⟨"TimeStretching", "time", "StructProp", none, [("ChannelID", "Parameters")], (some "stretching.time"), false, "", false, "EventModel"⟩,
  ⟨"Content", "declick_mode", "StructProp", none, [("ChannelID", "Parameters")], (some "content.declick_mode"), false, "", false, "EventModel"⟩,
  ⟨"Content", "keep_on_disk", "FlagProp", (some ("_SamplerFlags", "KeepOnDisk")), [("ChannelID", "SamplerFlags")], none, false, "", false, "EventModel"⟩,
  ⟨"Content", "load_regions", "FlagProp", (some ("_SamplerFlags", "LoadRegions")), [("ChannelID", "SamplerFlags")], none, false, "", false, "EventModel"⟩,
  ⟨"Content", "load_slices", "FlagProp", (some ("_SamplerFlags", "LoadSliceMarkers")), [("ChannelID", "SamplerFlags")], none, false, "", false, "EventModel"⟩,
  ⟨"Content", "resample", "FlagProp", (some ("_SamplerFlags", "Resample")), [("ChannelID", "SamplerFlags")], none, false, "", false, "EventModel"⟩,
  ⟨"AutomationLFO", "amount", "StructProp", none, [("ChannelID", "Automation")], (some "lfo.amount"), false, "", false, "EventModel"⟩,
  ⟨"AutomationPoint", "position", "StructProp", none, [], none, false, "", true, "ItemModel[AutomationEvent]"⟩,
  ⟨"AutomationPoint", "tension", "StructProp", none, [], none, false, "", false, "ItemModel[AutomationEvent]"⟩,
  ⟨"AutomationPoint", "value", "StructProp", none, [], none, false, "", false, "ItemModel[AutomationEvent]"⟩,
  ⟨"Channel", "color", "EventProp", none, [("PluginID", "Color")], none, false, "", false, "EventModel"⟩,
  ⟨"Channel", "internal_name", "EventProp", none, [("PluginID", "InternalName")], none, false, "", false, "EventModel"⟩,
  ⟨"Channel", "enabled", "EventProp", none, [("ChannelID", "IsEnabled")], none, false, "", false, "EventModel"⟩,
  ⟨"Channel", "icon", "EventProp", none, [("PluginID", "Icon")], none, false, "", false, "EventModel"⟩,
  ⟨"Channel", "iid", "EventProp", none, [("ChannelID", "New")], none, false, "", false, "EventModel"⟩,
  ⟨"Channel", "locked", "EventProp", none, [("ChannelID", "IsLocked")], none, false, "", false, "EventModel"⟩,
  ⟨"Channel", "name", "EventProp", none, [("PluginID", "Name"), ("ChannelID", "_Name")], none, false, "", false, "EventModel"⟩,
  ⟨"Layer", "crossfade", "FlagProp", (some ("_LayerFlags", "Crossfade")), [("ChannelID", "LayerFlags")], none, false, "", false, "Channel"⟩,
  ⟨"Layer", "random", "FlagProp", (some ("_LayerFlags", "Random")), [("ChannelID", "LayerFlags")], none, false, "", false, "Channel"⟩,
  ⟨"_SamplerInstrument", "cut_group", "EventProp", none, [("ChannelID", "CutGroup")], none, false, "", false, "Channel"⟩,
  ⟨"_SamplerInstrument", "insert", "EventProp", none, [("ChannelID", "RoutedTo")], none, false, "", false, "Channel"⟩,
  ⟨"Sampler", "au_sample_rate", "EventProp", none, [("ChannelID", "AUSampleRate")], none, false, "", false, "_SamplerInstrument"⟩,
  ⟨"ChannelRack", "fit_to_steps", "EventProp", none, [("RackID", "_FitToSteps")], none, false, "", false, "EventModel"⟩,
  ⟨"ChannelRack", "height", "EventProp", none, [("RackID", "WindowHeight")], none, false, "", false, "EventModel"⟩,
  ⟨"ChannelRack", "swing", "EventProp", none, [("RackID", "Swing")], none, false, "", false, "EventModel"⟩,
  ⟨"Slot", "color", "EventProp", none, [("PluginID", "Color")], none, false, "", false, "EventModel"⟩,
  ⟨"Slot", "iid", "EventProp", none, [("SlotID", "Index")], none, false, "", false, "EventModel"⟩,
  ⟨"Slot", "internal_name", "EventProp", none, [("PluginID", "InternalName")], none, false, "", false, "EventModel"⟩,
  ⟨"Slot", "icon", "EventProp", none, [("PluginID", "Icon")], none, false, "", false, "EventModel"⟩,
  ⟨"Slot", "index", "EventProp", none, [("SlotID", "Index")], none, false, "", false, "EventModel"⟩,
  ⟨"Slot", "name", "EventProp", none, [("PluginID", "Name")], none, false, "", false, "EventModel"⟩,
  ⟨"Insert", "bypassed", "FlagProp", (some ("_InsertFlags", "EnableEffects")), [("InsertID", "Flags")], none, true, "", false, "EventModel"⟩,
  ⟨"Insert", "channels_swapped", "FlagProp", (some ("_InsertFlags", "SwapLeftRight")), [("InsertID", "Flags")], none, false, "", false, "EventModel"⟩,
  ⟨"Insert", "color", "EventProp", none, [("InsertID", "Color")], none, false, "", false, "EventModel"⟩,
  ⟨"Insert", "enabled", "FlagProp", (some ("_InsertFlags", "Enabled")), [("InsertID", "Flags")], none, false, "", false, "EventModel"⟩,
  ⟨"Insert", "icon", "EventProp", none, [("InsertID", "Icon")], none, false, "", false, "EventModel"⟩,
  ⟨"Insert", "input", "EventProp", none, [("InsertID", "Input")], none, false, "", false, "EventModel"⟩,
  ⟨"Insert", "is_solo", "FlagProp", (some ("_InsertFlags", "Solo")), [("InsertID", "Flags")], none, false, "", false, "EventModel"⟩,
  ⟨"Insert", "locked", "FlagProp", (some ("_InsertFlags", "Locked")), [("InsertID", "Flags")], none, false, "", false, "EventModel"⟩,
  ⟨"Insert", "name", "EventProp", none, [("InsertID", "Name")], none, false, "", false, "EventModel"⟩,
  ⟨"Insert", "output", "EventProp", none, [("InsertID", "Output")], none, false, "", false, "EventModel"⟩,
  ⟨"Insert", "polarity_reversed", "FlagProp", (some ("_InsertFlags", "PolarityReversed")), [("InsertID", "Flags")], none, false, "", false, "EventModel"⟩,
  ⟨"Insert", "separator_shown", "FlagProp", (some ("_InsertFlags", "SeparatorShown")), [("InsertID", "Flags")], none, false, "", false, "EventModel"⟩,
  ⟨"Mixer", "apdc", "EventProp", none, [("MixerID", "APDC")], none, false, "", false, "EventModel"⟩,
  ⟨"Note", "fine_pitch", "StructProp", none, [], none, false, "", false, "ItemModel[NotesEvent]"⟩,
  ⟨"Note", "group", "StructProp", none, [], none, false, "", false, "ItemModel[NotesEvent]"⟩,
  ⟨"Note", "length", "StructProp", none, [], none, false, "", false, "ItemModel[NotesEvent]"⟩,
  ⟨"Note", "midi_channel", "StructProp", none, [], none, false, "", false, "ItemModel[NotesEvent]"⟩,
  ⟨"Note", "mod_x", "StructProp", none, [], none, false, "", false, "ItemModel[NotesEvent]"⟩,
  ⟨"Note", "mod_y", "StructProp", none, [], none, false, "", false, "ItemModel[NotesEvent]"⟩,
  ⟨"Note", "pan", "StructProp", none, [], none, false, "", false, "ItemModel[NotesEvent]"⟩,
  ⟨"Note", "position", "StructProp", none, [], none, false, "", false, "ItemModel[NotesEvent]"⟩,
  ⟨"Note", "rack_channel", "StructProp", none, [], none, false, "", false, "ItemModel[NotesEvent]"⟩,
  ⟨"Note", "release", "StructProp", none, [], none, false, "", false, "ItemModel[NotesEvent]"⟩,
  ⟨"Note", "slide", "FlagProp", (some ("_NoteFlags", "Slide")), [], none, false, "", false, "ItemModel[NotesEvent]"⟩,
  ⟨"Note", "velocity", "StructProp", none, [], none, false, "", false, "ItemModel[NotesEvent]"⟩,
  ⟨"Controller", "channel", "StructProp", none, [], none, false, "", false, "ItemModel[ControllerEvent]"⟩,
  ⟨"Controller", "position", "StructProp", none, [], none, false, "", false, "ItemModel[ControllerEvent]"⟩,
  ⟨"Controller", "value", "StructProp", none, [], none, false, "", false, "ItemModel[ControllerEvent]"⟩,
  ⟨"Pattern", "color", "EventProp", none, [("PatternID", "Color")], none, false, "", false, "EventModel"⟩,
  ⟨"Pattern", "length", "EventProp", none, [("PatternID", "Length")], none, false, "", false, "EventModel"⟩,
  ⟨"Pattern", "looped", "EventProp", none, [("PatternID", "Looped")], none, false, "False", false, "EventModel"⟩,
  ⟨"Pattern", "name", "EventProp", none, [("PatternID", "Name")], none, false, "", false, "EventModel"⟩,
  ⟨"Patterns", "play_cut_notes", "EventProp", none, [("PatternsID", "PlayTruncatedNotes")], none, false, "", false, "EventModel"⟩,
  ⟨"_PluginBase", "compact", "_WrapperProp", (some ("_WrapperFlags", "HideSettings")), [], none, false, "", false, "EventModel"⟩,
  ⟨"_PluginBase", "demo_mode", "_WrapperProp", (some ("_WrapperFlags", "DemoMode")), [], none, false, "", false, "EventModel"⟩,
  ⟨"_PluginBase", "detached", "_WrapperProp", (some ("_WrapperFlags", "Detached")), [], none, false, "", false, "EventModel"⟩,
  ⟨"_PluginBase", "disabled", "_WrapperProp", (some ("_WrapperFlags", "_Disabled")), [], none, false, "", false, "EventModel"⟩,
  ⟨"_PluginBase", "directx", "_WrapperProp", (some ("_WrapperFlags", "_DirectX")), [], none, false, "", false, "EventModel"⟩,
  ⟨"_PluginBase", "generator", "_WrapperProp", (some ("_WrapperFlags", "Generator")), [], none, false, "", false, "EventModel"⟩,
  ⟨"_PluginBase", "height", "StructProp", none, [("PluginID", "Wrapper")], none, false, "", false, "EventModel"⟩,
  ⟨"_PluginBase", "minimized", "_WrapperProp", (some ("_WrapperFlags", "Minimized")), [], none, false, "", false, "EventModel"⟩,
  ⟨"_PluginBase", "multithreaded", "_WrapperProp", (some ("_WrapperFlags", "ThreadedProcessing")), [], none, false, "", false, "EventModel"⟩,
  ⟨"_PluginBase", "page", "StructProp", none, [("PluginID", "Wrapper")], none, false, "", false, "EventModel"⟩,
  ⟨"_PluginBase", "smart_disable", "_WrapperProp", (some ("_WrapperFlags", "SmartDisable")), [], none, false, "", false, "EventModel"⟩,
  ⟨"_PluginBase", "visible", "_WrapperProp", (some ("_WrapperFlags", "Visible")), [], none, false, "", false, "EventModel"⟩,
  ⟨"_PluginBase", "width", "StructProp", none, [("PluginID", "Wrapper")], none, false, "", false, "EventModel"⟩,
  ⟨"PluginIOInfo", "mixer_offset", "StructProp", none, [], none, false, "", false, "EventModel"⟩,
  ⟨"PluginIOInfo", "flags", "StructProp", none, [], none, false, "", false, "EventModel"⟩,
  ⟨"BooBass", "bass", "_NativePluginProp", none, [], none, false, "", false, "_PluginBase[BooBassEvent]"⟩,
  ⟨"BooBass", "high", "_NativePluginProp", none, [], none, false, "", false, "_PluginBase[BooBassEvent]"⟩,
  ⟨"BooBass", "mid", "_NativePluginProp", none, [], none, false, "", false, "_PluginBase[BooBassEvent]"⟩,
  ⟨"FruitKick", "amp_decay", "_NativePluginProp", none, [], none, false, "", false, "_PluginBase[FruitKickEvent]"⟩,
  ⟨"FruitKick", "click", "_NativePluginProp", none, [], none, false, "", false, "_PluginBase[FruitKickEvent]"⟩,
  ⟨"FruitKick", "distortion", "_NativePluginProp", none, [], none, false, "", false, "_PluginBase[FruitKickEvent]"⟩,
  ⟨"FruitKick", "freq_decay", "_NativePluginProp", none, [], none, false, "", false, "_PluginBase[FruitKickEvent]"⟩,
  ⟨"FruitKick", "max_freq", "_NativePluginProp", none, [], none, false, "", false, "_PluginBase[FruitKickEvent]"⟩,
  ⟨"FruitKick", "min_freq", "_NativePluginProp", none, [], none, false, "", false, "_PluginBase[FruitKickEvent]"⟩,
  ⟨"FruityBalance", "pan", "_NativePluginProp", none, [], none, false, "", false, "_PluginBase[FruityBalanceEvent]"⟩,
  ⟨"FruityBalance", "volume", "_NativePluginProp", none, [], none, false, "", false, "_PluginBase[FruityBalanceEvent]"⟩,
  ⟨"FruityBloodOverdrive", "pre_band", "_NativePluginProp", none, [], none, false, "", false, "_PluginBase[FruityBloodOverdriveEvent]"⟩,
  ⟨"FruityBloodOverdrive", "color", "_NativePluginProp", none, [], none, false, "", false, "_PluginBase[FruityBloodOverdriveEvent]"⟩,
  ⟨"FruityBloodOverdrive", "pre_amp", "_NativePluginProp", none, [], none, false, "", false, "_PluginBase[FruityBloodOverdriveEvent]"⟩,
  ⟨"FruityBloodOverdrive", "x100", "_NativePluginProp", none, [], none, false, "", false, "_PluginBase[FruityBloodOverdriveEvent]"⟩,
  ⟨"FruityBloodOverdrive", "post_filter", "_NativePluginProp", none, [], none, false, "", false, "_PluginBase[FruityBloodOverdriveEvent]"⟩,
  ⟨"FruityBloodOverdrive", "post_gain", "_NativePluginProp", none, [], none, false, "", false, "_PluginBase[FruityBloodOverdriveEvent]"⟩,
  ⟨"FruityCenter", "enabled", "_NativePluginProp", none, [], none, false, "", false, "_PluginBase[FruityCenterEvent]"⟩,
  ⟨"FruityFastDist", "kind", "_NativePluginProp", none, [], none, false, "", false, "_PluginBase[FruityFastDistEvent]"⟩,
  ⟨"FruityFastDist", "mix", "_NativePluginProp", none, [], none, false, "", false, "_PluginBase[FruityFastDistEvent]"⟩,
  ⟨"FruityFastDist", "post", "_NativePluginProp", none, [], none, false, "", false, "_PluginBase[FruityFastDistEvent]"⟩,
  ⟨"FruityFastDist", "pre", "_NativePluginProp", none, [], none, false, "", false, "_PluginBase[FruityFastDistEvent]"⟩,
  ⟨"FruityFastDist", "threshold", "_NativePluginProp", none, [], none, false, "", false, "_PluginBase[FruityFastDistEvent]"⟩,
  ⟨"FruityNotebook2", "active_page", "_NativePluginProp", none, [], none, false, "", false, "_PluginBase[FruityNotebook2Event]"⟩,
  ⟨"FruityNotebook2", "editable", "_NativePluginProp", none, [], none, false, "", false, "_PluginBase[FruityNotebook2Event]"⟩,
  ⟨"FruityNotebook2", "pages", "_NativePluginProp", none, [], none, false, "", false, "_PluginBase[FruityNotebook2Event]"⟩,
  ⟨"FruitySend", "dry", "_NativePluginProp", none, [], none, false, "", false, "_PluginBase[FruitySendEvent]"⟩,
  ⟨"FruitySend", "pan", "_NativePluginProp", none, [], none, false, "", false, "_PluginBase[FruitySendEvent]"⟩,
  ⟨"FruitySend", "send_to", "_NativePluginProp", none, [], none, false, "", false, "_PluginBase[FruitySendEvent]"⟩,
  ⟨"FruitySend", "volume", "_NativePluginProp", none, [], none, false, "", false, "_PluginBase[FruitySendEvent]"⟩,
  ⟨"FruitySoftClipper", "post", "_NativePluginProp", none, [], none, false, "", false, "_PluginBase[FruitySoftClipperEvent]"⟩,
  ⟨"FruitySoftClipper", "threshold", "_NativePluginProp", none, [], none, false, "", false, "_PluginBase[FruitySoftClipperEvent]"⟩,
  ⟨"FruityStereoEnhancer", "effect_position", "_NativePluginProp", none, [], none, false, "", false, "_PluginBase[FruityStereoEnhancerEvent]"⟩,
  ⟨"FruityStereoEnhancer", "pan", "_NativePluginProp", none, [], none, false, "", false, "_PluginBase[FruityStereoEnhancerEvent]"⟩,
  ⟨"FruityStereoEnhancer", "phase_inversion", "_NativePluginProp", none, [], none, false, "", false, "_PluginBase[FruityStereoEnhancerEvent]"⟩,
  ⟨"FruityStereoEnhancer", "phase_offset", "_NativePluginProp", none, [], none, false, "", false, "_PluginBase[FruityStereoEnhancerEvent]"⟩,
  ⟨"FruityStereoEnhancer", "stereo_separation", "_NativePluginProp", none, [], none, false, "", false, "_PluginBase[FruityStereoEnhancerEvent]"⟩,
  ⟨"FruityStereoEnhancer", "volume", "_NativePluginProp", none, [], none, false, "", false, "_PluginBase[FruityStereoEnhancerEvent]"⟩,
  ⟨"Plucked", "color", "_NativePluginProp", none, [], none, false, "", false, "_PluginBase[PluckedEvent]"⟩,
  ⟨"Plucked", "decay", "_NativePluginProp", none, [], none, false, "", false, "_PluginBase[PluckedEvent]"⟩,
  ⟨"Plucked", "gate", "_NativePluginProp", none, [], none, false, "", false, "_PluginBase[PluckedEvent]"⟩,
  ⟨"Plucked", "normalize", "_NativePluginProp", none, [], none, false, "", false, "_PluginBase[PluckedEvent]"⟩,
  ⟨"Plucked", "widen", "_NativePluginProp", none, [], none, false, "", false, "_PluginBase[PluckedEvent]"⟩,
  ⟨"Soundgoodizer", "amount", "_NativePluginProp", none, [], none, false, "", false, "_PluginBase[SoundgoodizerEvent]"⟩,
  ⟨"Soundgoodizer", "mode", "_NativePluginProp", none, [], none, false, "", false, "_PluginBase[SoundgoodizerEvent]"⟩,
  ⟨"Project", "artists", "EventProp", none, [("ProjectID", "Artists")], none, false, "", false, "EventModel"⟩,
  ⟨"Project", "comments", "EventProp", none, [("ProjectID", "Comments"), ("ProjectID", "_RTFComments")], none, false, "", false, "EventModel"⟩,
  ⟨"Project", "genre", "EventProp", none, [("ProjectID", "Genre")], none, false, "", false, "EventModel"⟩,
  ⟨"Project", "licensed", "EventProp", none, [("ProjectID", "Licensed")], none, false, "", false, "EventModel"⟩,
  ⟨"Project", "looped", "EventProp", none, [("ProjectID", "LoopActive")], none, false, "", false, "EventModel"⟩,
  ⟨"Project", "main_pitch", "EventProp", none, [("ProjectID", "Pitch")], none, false, "", false, "EventModel"⟩,
  ⟨"Project", "main_volume", "EventProp", none, [("ProjectID", "_Volume")], none, false, "", false, "EventModel"⟩,
  ⟨"Project", "pan_law", "EventProp", none, [("ProjectID", "PanLaw")], none, false, "", false, "EventModel"⟩,
  ⟨"Project", "show_info", "EventProp", none, [("ProjectID", "ShowInfo")], none, false, "", false, "EventModel"⟩,
  ⟨"Project", "title", "EventProp", none, [("ProjectID", "Title")], none, false, "", false, "EventModel"⟩,
  ⟨"Project", "url", "EventProp", none, [("ProjectID", "Url")], none, false, "", false, "EventModel"⟩,
  ⟨"TimeMarker", "denominator", "EventProp", none, [("TimeMarkerID", "Denominator")], none, false, "", false, "EventModel"⟩,
  ⟨"TimeMarker", "name", "EventProp", none, [("TimeMarkerID", "Name")], none, false, "", false, "EventModel"⟩,
  ⟨"TimeMarker", "numerator", "EventProp", none, [("TimeMarkerID", "Numerator")], none, false, "", false, "EventModel"⟩]

/-- The models within models. -/
def nested : List NestedDecl := [
  ⟨"Arrangements", "time_signature", "TimeSignature", [("ArrangementsID", "TimeSigNum"), ("ArrangementsID", "TimeSigBeat")]⟩,
  ⟨"FX", "reverb", "Reverb", [("ChannelID", "Reverb")]⟩,
  ⟨"Channel", "keyboard", "Keyboard", [("ChannelID", "FineTune"), ("ChannelID", "RootNote"), ("ChannelID", "Parameters")]⟩,
  ⟨"Automation", "lfo", "AutomationLFO", [("ChannelID", "Automation")]⟩,
  ⟨"_SamplerInstrument", "arp", "Arp", [("ChannelID", "Parameters")]⟩,
  ⟨"_SamplerInstrument", "delay", "Delay", [("ChannelID", "Delay"), ("ChannelID", "DelayModXY"), ("ChannelID", "Parameters")]⟩,
  ⟨"_SamplerInstrument", "level_adjusts", "LevelAdjusts", [("ChannelID", "LevelAdjusts")]⟩,
  ⟨"_SamplerInstrument", "polyphony", "Polyphony", [("ChannelID", "Polyphony")]⟩,
  ⟨"_SamplerInstrument", "time", "Time", [("ChannelID", "Swing"), ("ChannelID", "TimeShift"), ("ChannelID", "Parameters")]⟩,
  ⟨"Sampler", "content", "Content", [("ChannelID", "SamplerFlags"), ("ChannelID", "Parameters")]⟩,
  ⟨"Sampler", "filter", "Filter", [("ChannelID", "Levels")]⟩,
  ⟨"Sampler", "fx", "FX", [("ChannelID", "Cutoff"), ("ChannelID", "FadeIn"), ("ChannelID", "FadeOut"), ("ChannelID", "FreqTilt"), ("ChannelID", "Parameters"), ("ChannelID", "Pogo"), ("ChannelID", "Preamp"), ("ChannelID", "Resonance"), ("ChannelID", "Reverb"), ("ChannelID", "RingMod"), ("ChannelID", "StereoDelay"), ("ChannelID", "FXFlags")]⟩,
  ⟨"Sampler", "playback", "Playback", [("ChannelID", "SamplerFlags"), ("ChannelID", "PingPongLoop"), ("ChannelID", "Parameters")]⟩,
  ⟨"Sampler", "stretching", "TimeStretching", [("ChannelID", "Parameters")]⟩]

/-- The classes of plugins. -/
def plugins : List PluginDecl := [
  ⟨"VSTPlugin", "Fruity Wrapper", "VSTPluginEvent"⟩,
  ⟨"BooBass", "BooBass", "BooBassEvent"⟩,
  ⟨"FruitKick", "Fruit Kick", "FruitKickEvent"⟩,
  ⟨"FruityBalance", "Fruity Balance", "FruityBalanceEvent"⟩,
  ⟨"FruityBloodOverdrive", "Fruity Blood Overdrive", "FruityBloodOverdriveEvent"⟩,
  ⟨"FruityCenter", "Fruity Center", "FruityCenterEvent"⟩,
  ⟨"FruityFastDist", "Fruity Fast Dist", "FruityFastDistEvent"⟩,
  ⟨"FruityNotebook2", "Fruity NoteBook 2", "FruityNotebook2Event"⟩,
  ⟨"FruitySend", "Fruity Send", "FruitySendEvent"⟩,
  ⟨"FruitySoftClipper", "Fruity Soft Clipper", "FruitySoftClipperEvent"⟩,
  ⟨"FruityStereoEnhancer", "Fruity Stereo Enhancer", "FruityStereoEnhancerEvent"⟩,
  ⟨"Plucked", "Plucked!", "PluckedEvent"⟩,
  ⟨"Soundgoodizer", "Soundgoodizer", "SoundgoodizerEvent"⟩]

/-- The classes that can be the plugin of a model. -/
def choices : List ChoiceDecl := [
  ⟨"Instrument", "plugin", ["VSTPlugin", "BooBass", "FruitKick", "Plucked"]⟩,
  ⟨"Slot", "plugin", ["VSTPlugin", "FruityBalance", "FruityBloodOverdrive", "FruityCenter", "FruityFastDist", "FruityNotebook2", "FruitySend", "FruitySoftClipper", "FruityStereoEnhancer", "Soundgoodizer"]⟩]

/-- The sub-events of VST plugin data (`_VSTPluginEventID`). -/
def subevents : List (String × Nat) := [
  ("MIDI", 1),
  ("Flags", 2),
  ("IO", 30),
  ("Inputs", 31),
  ("Outputs", 32),
  ("PluginInfo", 50),
  ("FourCC", 51),
  ("GUID", 52),
  ("State", 53),
  ("Name", 54),
  ("PluginPath", 55),
  ("Vendor", 56),
  ("_57", 57)]

/-- The properties of `VSTPlugin`. -/
def vst : List VstDecl := [
  ⟨"_AutomationOptions", "notify_changes", "_VSTFlagProp", ("_VSTFlags", "DontNotifyChanges"), none, true⟩,
  ⟨"_CompatibilityOptions", "buffers_maxsize", "_VSTFlagProp", ("_VSTFlags2", "UseMaxFromHost"), (some "flags2"), false⟩,
  ⟨"_CompatibilityOptions", "fast_idle", "_VSTPluginProp", ("_VSTPluginEventID", "Flags"), none, false⟩,
  ⟨"_CompatibilityOptions", "fixed_buffers", "_VSTFlagProp", ("_VSTFlags", "FixedSizeBuffers"), none, false⟩,
  ⟨"_CompatibilityOptions", "process_maximum", "_VSTFlagProp", ("_VSTFlags2", "ProcessMaxSize"), (some "flags2"), false⟩,
  ⟨"_CompatibilityOptions", "reset_on_transport", "_VSTFlagProp", ("_VSTFlags", "DontResetOnTransport"), none, true⟩,
  ⟨"_CompatibilityOptions", "send_loop", "_VSTFlagProp", ("_VSTFlags", "SendLoopPos"), none, false⟩,
  ⟨"_CompatibilityOptions", "use_time_offset", "_VSTFlagProp", ("_VSTFlags", "DontUseTimeOffset"), none, true⟩,
  ⟨"_MIDIOptions", "input", "_VSTPluginProp", ("_VSTPluginEventID", "MIDI"), none, false⟩,
  ⟨"_MIDIOptions", "output", "_VSTPluginProp", ("_VSTPluginEventID", "MIDI"), none, false⟩,
  ⟨"_MIDIOptions", "pb_range", "_VSTPluginProp", ("_VSTPluginEventID", "MIDI"), none, false⟩,
  ⟨"_MIDIOptions", "send_modx", "_VSTFlagProp", ("_VSTFlags", "SendModX"), none, false⟩,
  ⟨"_MIDIOptions", "send_pb", "_VSTFlagProp", ("_VSTFlags", "SendPBRange"), none, false⟩,
  ⟨"_MIDIOptions", "send_release", "_VSTFlagProp", ("_VSTFlags", "DontSendRelVelo"), none, true⟩,
  ⟨"_ProcessingOptions", "allow_sd", "_VSTFlagProp", ("_VSTFlags", "AllowSmartDisable"), none, false⟩,
  ⟨"_ProcessingOptions", "bridged", "_VSTFlagProp", ("_VSTFlags", "LoadBridged"), none, false⟩,
  ⟨"_ProcessingOptions", "external", "_VSTFlagProp", ("_VSTFlags", "ExternalWindow"), none, false⟩,
  ⟨"_ProcessingOptions", "keep_state", "_VSTFlagProp", ("_VSTFlags", "DontKeepCPUState"), none, true⟩,
  ⟨"_ProcessingOptions", "multithreaded", "_VSTFlagProp", ("_VSTFlags", "AllowThreaded"), none, false⟩,
  ⟨"_ProcessingOptions", "notify_render", "_VSTFlagProp", ("_VSTFlags", "NotifyRender"), none, false⟩,
  ⟨"_ProcessingOptions", "process_inactive", "_VSTFlagProp", ("_VSTFlags", "ProcessInactive"), none, false⟩,
  ⟨"_UIOptions", "accept_drop", "_VSTFlagProp", ("_VSTFlags", "AcceptFileDrop"), none, false⟩,
  ⟨"_UIOptions", "always_update", "_VSTFlagProp", ("_VSTFlags", "UpdateWhenHidden"), none, false⟩,
  ⟨"_UIOptions", "dpi_aware", "_VSTFlagProp", ("_VSTFlags", "DPIAwareBridged"), none, false⟩,
  ⟨"_UIOptions", "scale_editor", "_VSTFlagProp", ("_VSTFlags", "ScaleEditor"), none, false⟩,
  ⟨"", "fourcc", "_VSTPluginProp", ("_VSTPluginEventID", "FourCC"), none, false⟩,
  ⟨"", "guid", "_VSTPluginProp", ("_VSTPluginEventID", "GUID"), none, false⟩,
  ⟨"", "name", "_VSTPluginProp", ("_VSTPluginEventID", "Name"), none, false⟩,
  ⟨"", "plugin_path", "_VSTPluginProp", ("_VSTPluginEventID", "PluginPath"), none, false⟩,
  ⟨"", "state", "_VSTPluginProp", ("_VSTPluginEventID", "State"), none, false⟩,
  ⟨"", "vendor", "_VSTPluginProp", ("_VSTPluginEventID", "Vendor"), none, false⟩]

/-- The classes that get their `__repr__` from `ModelReprMixin`. -/
def reprs : List ReprDecl := [
  ⟨"PLItemBase", [("group", "descriptor"), ("length", "descriptor"), ("muted", "descriptor"), ("offsets", "property"), ("position", "descriptor")]⟩,
  ⟨"ChannelPLItem", [("channel", "property")]⟩,
  ⟨"PatternPLItem", [("pattern", "property")]⟩,
  ⟨"TimeSignature", [("num", "descriptor"), ("beat", "descriptor")]⟩,
  ⟨"DisplayGroup", [("name", "descriptor")]⟩,
  ⟨"Arp", [("chord", "descriptor"), ("direction", "descriptor"), ("gate", "descriptor"), ("range", "descriptor"), ("repeat", "descriptor"), ("slide", "descriptor"), ("time", "descriptor")]⟩,
  ⟨"Delay", [("echoes", "descriptor"), ("fat_mode", "descriptor"), ("feedback", "descriptor"), ("mod_x", "property"), ("mod_y", "property"), ("pan", "descriptor"), ("ping_pong", "descriptor"), ("pitch_shift", "descriptor"), ("time", "descriptor")]⟩,
  ⟨"Filter", [("mod_x", "descriptor"), ("mod_y", "descriptor"), ("type", "descriptor")]⟩,
  ⟨"LevelAdjusts", [("mod_x", "descriptor"), ("mod_y", "descriptor"), ("pan", "descriptor"), ("volume", "descriptor")]⟩,
  ⟨"Time", [("swing", "descriptor"), ("gate", "descriptor"), ("shift", "descriptor"), ("full_porta", "descriptor")]⟩,
  ⟨"Reverb", [("type", "property"), ("mix", "property")]⟩,
  ⟨"FX", [("boost", "descriptor"), ("clip", "descriptor"), ("crossfade", "descriptor"), ("cutoff", "descriptor"), ("fade_in", "descriptor"), ("fade_out", "descriptor"), ("fade_stereo", "descriptor"), ("fix_trim", "descriptor"), ("freq_tilt", "descriptor"), ("inverted", "descriptor"), ("length", "descriptor"), ("normalize", "descriptor"), ("pogo", "descriptor"), ("remove_dc", "descriptor"), ("resonance", "descriptor"), ("reverb", "descriptor"), ("reverse", "descriptor"), ("ringmod", "descriptor"), ("start", "descriptor"), ("stereo_delay", "descriptor"), ("swap_stereo", "descriptor"), ("trim", "descriptor")]⟩,
  ⟨"Envelope", [("enabled", "descriptor"), ("predelay", "descriptor"), ("amount", "descriptor"), ("attack", "descriptor"), ("hold", "descriptor"), ("decay", "descriptor"), ("sustain", "descriptor"), ("release", "descriptor"), ("synced", "descriptor"), ("attack_tension", "descriptor"), ("decay_tension", "descriptor"), ("release_tension", "descriptor")]⟩,
  ⟨"SamplerLFO", [("amount", "descriptor"), ("attack", "descriptor"), ("predelay", "descriptor"), ("speed", "descriptor"), ("synced", "descriptor"), ("retrig", "descriptor"), ("shape", "descriptor")]⟩,
  ⟨"Polyphony", [("mono", "descriptor"), ("porta", "descriptor"), ("max", "descriptor"), ("slide", "descriptor")]⟩,
  ⟨"Tracking", [("middle_value", "descriptor"), ("mod_x", "descriptor"), ("mod_y", "descriptor"), ("pan", "descriptor")]⟩,
  ⟨"Keyboard", [("fine_tune", "descriptor"), ("root_note", "descriptor"), ("main_pitch", "descriptor"), ("add_root", "descriptor"), ("key_region", "descriptor")]⟩,
  ⟨"Playback", [("ping_pong_loop", "descriptor"), ("start_offset", "descriptor"), ("use_loop_points", "descriptor")]⟩,
  ⟨"TimeStretching", [("mode", "descriptor"), ("multiplier", "descriptor"), ("pitch", "descriptor"), ("time", "descriptor")]⟩,
  ⟨"Content", [("declick_mode", "descriptor"), ("keep_on_disk", "descriptor"), ("load_regions", "descriptor"), ("load_slices", "descriptor"), ("resample", "descriptor")]⟩,
  ⟨"AutomationLFO", [("amount", "descriptor")]⟩,
  ⟨"AutomationPoint", [("position", "descriptor"), ("tension", "descriptor"), ("value", "descriptor")]⟩,
  ⟨"RemoteController", [("parameter", "property"), ("controls_vst", "property")]⟩,
  ⟨"InsertEQBand", [("size", "property"), ("gain", "descriptor"), ("freq", "descriptor"), ("reso", "descriptor")]⟩,
  ⟨"InsertEQ", [("size", "property"), ("low", "descriptor"), ("mid", "descriptor"), ("high", "descriptor")]⟩,
  ⟨"Controller", [("channel", "descriptor"), ("position", "descriptor"), ("value", "descriptor")]⟩,
  ⟨"BooBass", [("INTERNAL_NAME", "constant"), ("bass", "descriptor"), ("high", "descriptor"), ("mid", "descriptor")]⟩,
  ⟨"FruitKick", [("INTERNAL_NAME", "constant"), ("amp_decay", "descriptor"), ("click", "descriptor"), ("distortion", "descriptor"), ("freq_decay", "descriptor"), ("max_freq", "descriptor"), ("min_freq", "descriptor")]⟩,
  ⟨"FruityBalance", [("INTERNAL_NAME", "constant"), ("pan", "descriptor"), ("volume", "descriptor")]⟩,
  ⟨"FruityBloodOverdrive", [("INTERNAL_NAME", "constant"), ("pre_band", "descriptor"), ("color", "descriptor"), ("pre_amp", "descriptor"), ("x100", "descriptor"), ("post_filter", "descriptor"), ("post_gain", "descriptor")]⟩,
  ⟨"FruityCenter", [("INTERNAL_NAME", "constant"), ("enabled", "descriptor")]⟩,
  ⟨"FruityFastDist", [("INTERNAL_NAME", "constant"), ("kind", "descriptor"), ("mix", "descriptor"), ("post", "descriptor"), ("pre", "descriptor"), ("threshold", "descriptor")]⟩,
  ⟨"FruityNotebook2", [("INTERNAL_NAME", "constant"), ("active_page", "descriptor"), ("editable", "descriptor"), ("pages", "descriptor")]⟩,
  ⟨"FruitySend", [("INTERNAL_NAME", "constant"), ("dry", "descriptor"), ("pan", "descriptor"), ("send_to", "descriptor"), ("volume", "descriptor")]⟩,
  ⟨"FruitySoftClipper", [("INTERNAL_NAME", "constant"), ("post", "descriptor"), ("threshold", "descriptor")]⟩,
  ⟨"FruityStereoEnhancer", [("INTERNAL_NAME", "constant"), ("effect_position", "descriptor"), ("pan", "descriptor"), ("phase_inversion", "descriptor"), ("phase_offset", "descriptor"), ("stereo_separation", "descriptor"), ("volume", "descriptor")]⟩,
  ⟨"Plucked", [("INTERNAL_NAME", "constant"), ("color", "descriptor"), ("decay", "descriptor"), ("gate", "descriptor"), ("normalize", "descriptor"), ("widen", "descriptor")]⟩,
  ⟨"Soundgoodizer", [("INTERNAL_NAME", "constant"), ("amount", "descriptor"), ("mode", "descriptor")]⟩,
  ⟨"TimeMarker", [("denominator", "descriptor"), ("name", "descriptor"), ("numerator", "descriptor"), ("position", "property"), ("type", "property")]⟩]

end PyFLP.Declared
