import Verif.Descriptors
/-!
# All properties of the models

The classes derived from `EventModel` declare their properties as descriptors
(`_descriptors.py:121-225`).  This table has every `EventProp`, `StructProp`, `FlagProp` and the
derived `_WrapperProp` (`plugin.py:349-351`) and `_NativePluginProp` (`plugin.py:450-452`) of every such class.  Not in
the table: `Track.color`, the properties of `FruityNotebook2` and the VST properties, which convert values, and the
properties of items (notes, controllers, playlist items, automation points).
-/

namespace PyFLP

/-- What a property stands for: the value of an event, a field of a struct event, or a flag with the bits `bits` of the
word in this field (or of the value, if the event is no struct); `members` are the bits of all members of the flag's
class. -/
inductive Access
  | event
  | field (key : String)
  | flag (members bits : Nat) (key : String) (inverted : Bool)
  deriving DecidableEq, Repr

/-- One property: class, name, event ids of the descriptor, the ids of the events that a model of the class has (given
for properties without event ids: `NestedProp` and `separate` make these models), and the default. -/
structure PropRow where
  cls : String
  attr : String
  ids : List Nat
  view : List Nat
  acc : Access
  default : Option Value
  deriving DecidableEq

/-- Type of the values. -/
abbrev Access.type : Access → Type
  | .event => Value
  | .field _ => LV
  | .flag .. => Bool

/-- The descriptor. -/
def Access.descr (ver : PyVer) (ids : List Nat) (default : Option Value) : (a : Access) → Descr a.type
  | .event => eventProp ids default
  | .field key => structProp ids key
  | .flag members bits key inverted => flagProp ver members bits ids key inverted

namespace PropRow

/-- Type of the values. -/
abbrev type (p : PropRow) : Type := p.acc.type

/-- The descriptor. -/
def descr (ver : PyVer) (p : PropRow) : Descr p.type := p.acc.descr ver p.ids p.default

/-- `model.attr` for a model with the events of the tree `t`. -/
def read (ver : PyVer) (p : PropRow) (w : World) (t : Nat) : Py (Option p.type) := (p.descr ver).read w t

/-- `model.attr = v`. -/
def write (ver : PyVer) (p : PropRow) (w : World) (t : Nat) (v : p.type) : World × Py Unit := (p.descr ver).write w t v

end PropRow

/-- Channels and their parts (`channel.py`). -/
def channelProps : List PropRow := [
  -- channel.py:436-442
  ⟨"DisplayGroup", "name", [231], [], .event, none⟩,
  -- channel.py:445-471
  ⟨"Arp", "chord", [], [215], .field "chord", none⟩, ⟨"Arp", "direction", [], [215], .field "direction", none⟩,
  ⟨"Arp", "gate", [], [215], .field "gate", none⟩, ⟨"Arp", "range", [], [215], .field "range", none⟩,
  ⟨"Arp", "repeat", [], [215], .field "repeat", none⟩, ⟨"Arp", "slide", [], [215], .field "slide", none⟩,
  ⟨"Arp", "time", [], [215], .field "time", none⟩,
  -- channel.py:474-551
  ⟨"Delay", "echoes", [209], [], .field "echoes", none⟩,
  ⟨"Delay", "fat_mode", [215], [], .flag 6 4 "delay.flags" false, none⟩,
  ⟨"Delay", "feedback", [209], [], .field "feedback", none⟩, ⟨"Delay", "pan", [209], [], .field "pan", none⟩,
  ⟨"Delay", "ping_pong", [215], [], .flag 6 2 "delay.flags" false, none⟩,
  ⟨"Delay", "pitch_shift", [209], [], .field "pitch_shift", none⟩, ⟨"Delay", "time", [209], [], .field "time", none⟩,
  -- channel.py:554-567
  ⟨"Filter", "mod_x", [219], [], .field "filter.mod_x", none⟩,
  ⟨"Filter", "mod_y", [219], [], .field "filter.mod_y", none⟩,
  ⟨"Filter", "type", [219], [], .field "filter.type", none⟩,
  -- channel.py:570-581
  ⟨"LevelAdjusts", "mod_x", [], [229], .field "mod_x", none⟩,
  ⟨"LevelAdjusts", "mod_y", [], [229], .field "mod_y", none⟩, ⟨"LevelAdjusts", "pan", [], [229], .field "pan", none⟩,
  ⟨"LevelAdjusts", "volume", [], [229], .field "volume", none⟩,
  -- channel.py:584-616
  ⟨"Time", "swing", [97], [], .event, none⟩, ⟨"Time", "gate", [215], [], .field "time.gate", none⟩,
  ⟨"Time", "shift", [89], [], .event, none⟩, ⟨"Time", "full_porta", [215], [], .field "time.full_porta", none⟩,
  -- channel.py:657-785
  ⟨"FX", "boost", [74], [], .event, none⟩, ⟨"FX", "clip", [70], [], .flag 263 4 "flags" false, none⟩,
  ⟨"FX", "crossfade", [215], [], .field "fx.crossfade", none⟩, ⟨"FX", "cutoff", [71], [], .event, none⟩,
  ⟨"FX", "fade_in", [76], [], .event, none⟩, ⟨"FX", "fade_out", [75], [], .event, none⟩,
  ⟨"FX", "fade_stereo", [70], [], .flag 263 1 "flags" false, none⟩,
  ⟨"FX", "fix_trim", [215], [], .field "fx.fix_trim", none⟩, ⟨"FX", "freq_tilt", [69], [], .event, none⟩,
  ⟨"FX", "inverted", [215], [], .field "fx.inverted", none⟩, ⟨"FX", "length", [215], [], .field "fx.length", none⟩,
  ⟨"FX", "normalize", [215], [], .field "fx.normalize", none⟩, ⟨"FX", "pogo", [86], [], .event, none⟩,
  ⟨"FX", "remove_dc", [215], [], .field "fx.remove_dc", none⟩, ⟨"FX", "resonance", [83], [], .event, none⟩,
  ⟨"FX", "reverse", [70], [], .flag 263 2 "flags" false, none⟩, ⟨"FX", "ringmod", [131], [], .event, none⟩,
  ⟨"FX", "start", [215], [], .field "fx.start", none⟩, ⟨"FX", "stereo_delay", [85], [], .event, none⟩,
  ⟨"FX", "swap_stereo", [70], [], .flag 263 256 "flags" false, none⟩,
  ⟨"FX", "trim", [215], [], .field "fx.trim", none⟩,
  -- channel.py:788-908
  ⟨"Envelope", "enabled", [], [218], .field "envelope.enabled", none⟩,
  ⟨"Envelope", "predelay", [], [218], .field "envelope.predelay", none⟩,
  ⟨"Envelope", "amount", [], [218], .field "envelope.amount", none⟩,
  ⟨"Envelope", "attack", [], [218], .field "envelope.attack", none⟩,
  ⟨"Envelope", "hold", [], [218], .field "envelope.hold", none⟩,
  ⟨"Envelope", "decay", [], [218], .field "envelope.decay", none⟩,
  ⟨"Envelope", "sustain", [], [218], .field "envelope.sustain", none⟩,
  ⟨"Envelope", "release", [], [218], .field "envelope.release", none⟩,
  ⟨"Envelope", "synced", [], [218], .flag 39 1 "flags" false, none⟩,
  ⟨"Envelope", "attack_tension", [], [218], .field "envelope.attack_tension", none⟩,
  ⟨"Envelope", "decay_tension", [], [218], .field "envelope.decay_tension", none⟩,
  ⟨"Envelope", "release_tension", [], [218], .field "envelope.release_tension", none⟩,
  -- channel.py:911-968
  ⟨"SamplerLFO", "amount", [], [218], .field "lfo.amount", none⟩,
  ⟨"SamplerLFO", "attack", [], [218], .field "lfo.attack", none⟩,
  ⟨"SamplerLFO", "predelay", [], [218], .field "lfo.predelay", none⟩,
  ⟨"SamplerLFO", "speed", [], [218], .field "lfo.speed", none⟩,
  ⟨"SamplerLFO", "synced", [], [218], .flag 39 2 "flags" false, none⟩,
  ⟨"SamplerLFO", "retrig", [], [218], .flag 39 32 "flags" false, none⟩,
  ⟨"SamplerLFO", "shape", [], [218], .field "lfo.shape", none⟩,
  -- channel.py:971-996
  ⟨"Polyphony", "mono", [], [221], .flag 3 1 "flags" false, none⟩,
  ⟨"Polyphony", "porta", [], [221], .flag 3 2 "flags" false, none⟩,
  ⟨"Polyphony", "max", [], [221], .field "max", none⟩, ⟨"Polyphony", "slide", [], [221], .field "slide", none⟩,
  -- channel.py:999-1032
  ⟨"Tracking", "middle_value", [], [228], .field "middle_value", none⟩,
  ⟨"Tracking", "mod_x", [], [228], .field "mod_x", none⟩, ⟨"Tracking", "mod_y", [], [228], .field "mod_y", none⟩,
  ⟨"Tracking", "pan", [], [228], .field "pan", none⟩,
  -- channel.py:1035-1062
  ⟨"Keyboard", "fine_tune", [142], [], .event, none⟩,
  ⟨"Keyboard", "root_note", [135], [], .event, some (.lv (.int 60))⟩,
  ⟨"Keyboard", "main_pitch", [215], [], .field "keyboard.main_pitch", none⟩,
  ⟨"Keyboard", "add_root", [215], [], .field "keyboard.add_root", none⟩,
  ⟨"Keyboard", "key_region", [215], [], .field "keyboard.key_region", none⟩,
  -- channel.py:1065-1081
  ⟨"Playback", "ping_pong_loop", [20], [], .event, none⟩,
  ⟨"Playback", "start_offset", [215], [], .field "playback.start_offset", none⟩,
  ⟨"Playback", "use_loop_points", [143], [], .flag 271 8 "flags" false, none⟩,
  -- channel.py:1084-1107
  ⟨"TimeStretching", "mode", [215], [], .field "stretching.mode", none⟩,
  ⟨"TimeStretching", "multiplier", [215], [], .field "stretching.multiplier", none⟩,
  ⟨"TimeStretching", "pitch", [215], [], .field "stretching.pitch", none⟩,
  ⟨"TimeStretching", "time", [215], [], .field "stretching.time", none⟩,
  -- channel.py:1110-1138
  ⟨"Content", "declick_mode", [215], [], .field "content.declick_mode", none⟩,
  ⟨"Content", "keep_on_disk", [143], [], .flag 271 256 "flags" false, none⟩,
  ⟨"Content", "load_regions", [143], [], .flag 271 2 "flags" false, none⟩,
  ⟨"Content", "load_slices", [143], [], .flag 271 4 "flags" false, none⟩,
  ⟨"Content", "resample", [143], [], .flag 271 1 "flags" false, none⟩,
  -- channel.py:1141-1150
  ⟨"AutomationLFO", "amount", [234], [], .field "lfo.amount", none⟩,
  -- channel.py:1171-1304
  ⟨"Channel", "color", [128], [], .event, none⟩, ⟨"Channel", "internal_name", [201], [], .event, none⟩,
  ⟨"Channel", "enabled", [0], [], .event, none⟩, ⟨"Channel", "icon", [155], [], .event, none⟩,
  ⟨"Channel", "iid", [64], [], .event, none⟩, ⟨"Channel", "locked", [32], [], .event, none⟩,
  ⟨"Channel", "name", [203, 192], [], .event, none⟩,
  -- channel.py:1335-1378
  ⟨"Layer", "crossfade", [144], [], .flag 3 2 "flags" false, none⟩,
  ⟨"Layer", "random", [144], [], .flag 3 1 "flags" false, none⟩,
  -- channel.py:1381-1439
  ⟨"_SamplerInstrument", "cut_group", [132], [], .event, none⟩,
  ⟨"_SamplerInstrument", "insert", [22], [], .event, none⟩,
  -- channel.py:1450-1532
  ⟨"Sampler", "au_sample_rate", [153], [], .event, none⟩,
  -- channel.py:1535-1637
  ⟨"ChannelRack", "fit_to_steps", [13], [], .event, none⟩, ⟨"ChannelRack", "height", [133], [], .event, none⟩,
  ⟨"ChannelRack", "swing", [11], [], .event, none⟩]

/-- Plugins (`plugin.py`). -/
def pluginProps : List PropRow := [
  -- plugin.py:356-409
  ⟨"_PluginBase", "compact", [212], [], .flag 197623 256 "flags" false, none⟩,
  ⟨"_PluginBase", "demo_mode", [212], [], .flag 197623 128 "flags" false, none⟩,
  ⟨"_PluginBase", "detached", [212], [], .flag 197623 4 "flags" false, none⟩,
  ⟨"_PluginBase", "disabled", [212], [], .flag 197623 2 "flags" false, none⟩,
  ⟨"_PluginBase", "directx", [212], [], .flag 197623 65536 "flags" false, none⟩,
  ⟨"_PluginBase", "generator", [212], [], .flag 197623 16 "flags" false, none⟩,
  ⟨"_PluginBase", "height", [212], [], .field "height", none⟩,
  ⟨"_PluginBase", "minimized", [212], [], .flag 197623 512 "flags" false, none⟩,
  ⟨"_PluginBase", "multithreaded", [212], [], .flag 197623 64 "flags" false, none⟩,
  ⟨"_PluginBase", "page", [212], [], .field "page", none⟩,
  ⟨"_PluginBase", "smart_disable", [212], [], .flag 197623 32 "flags" false, none⟩,
  ⟨"_PluginBase", "visible", [212], [], .flag 197623 1 "flags" false, none⟩,
  ⟨"_PluginBase", "width", [212], [], .field "width", none⟩,
  -- plugin.py:718-744
  ⟨"BooBass", "bass", [213], [], .field "bass", none⟩, ⟨"BooBass", "high", [213], [], .field "high", none⟩,
  ⟨"BooBass", "mid", [213], [], .field "mid", none⟩,
  -- plugin.py:747-808
  ⟨"FruitKick", "amp_decay", [213], [], .field "amp_decay", none⟩,
  ⟨"FruitKick", "click", [213], [], .field "click", none⟩,
  ⟨"FruitKick", "distortion", [213], [], .field "distortion", none⟩,
  ⟨"FruitKick", "freq_decay", [213], [], .field "freq_decay", none⟩,
  ⟨"FruitKick", "max_freq", [213], [], .field "max_freq", none⟩,
  ⟨"FruitKick", "min_freq", [213], [], .field "min_freq", none⟩,
  -- plugin.py:811-833
  ⟨"FruityBalance", "pan", [213], [], .field "pan", none⟩,
  ⟨"FruityBalance", "volume", [213], [], .field "volume", none⟩,
  -- plugin.py:836-899
  ⟨"FruityBloodOverdrive", "pre_band", [213], [], .field "pre_band", none⟩,
  ⟨"FruityBloodOverdrive", "color", [213], [], .field "color", none⟩,
  ⟨"FruityBloodOverdrive", "pre_amp", [213], [], .field "pre_amp", none⟩,
  ⟨"FruityBloodOverdrive", "x100", [213], [], .field "x100", none⟩,
  ⟨"FruityBloodOverdrive", "post_filter", [213], [], .field "post_filter", none⟩,
  ⟨"FruityBloodOverdrive", "post_gain", [213], [], .field "post_gain", none⟩,
  -- plugin.py:902-910
  ⟨"FruityCenter", "enabled", [213], [], .field "enabled", none⟩,
  -- plugin.py:913-953
  ⟨"FruityFastDist", "kind", [213], [], .field "kind", none⟩, ⟨"FruityFastDist", "mix", [213], [], .field "mix", none⟩,
  ⟨"FruityFastDist", "post", [213], [], .field "post", none⟩, ⟨"FruityFastDist", "pre", [213], [], .field "pre", none⟩,
  ⟨"FruityFastDist", "threshold", [213], [], .field "threshold", none⟩,
  -- plugin.py:973-1007
  ⟨"FruitySend", "dry", [213], [], .field "dry", none⟩, ⟨"FruitySend", "pan", [213], [], .field "pan", none⟩,
  ⟨"FruitySend", "send_to", [213], [], .field "send_to", none⟩,
  ⟨"FruitySend", "volume", [213], [], .field "volume", none⟩,
  -- plugin.py:1010-1032
  ⟨"FruitySoftClipper", "post", [213], [], .field "post", none⟩,
  ⟨"FruitySoftClipper", "threshold", [213], [], .field "threshold", none⟩,
  -- plugin.py:1035-1083
  ⟨"FruityStereoEnhancer", "effect_position", [213], [], .field "effect_position", none⟩,
  ⟨"FruityStereoEnhancer", "pan", [213], [], .field "pan", none⟩,
  ⟨"FruityStereoEnhancer", "phase_inversion", [213], [], .field "phase_inversion", none⟩,
  ⟨"FruityStereoEnhancer", "phase_offset", [213], [], .field "phase_offset", none⟩,
  ⟨"FruityStereoEnhancer", "stereo_separation", [213], [], .field "stereo_separation", none⟩,
  ⟨"FruityStereoEnhancer", "volume", [213], [], .field "volume", none⟩,
  -- plugin.py:1086-1116
  ⟨"Plucked", "color", [213], [], .field "color", none⟩, ⟨"Plucked", "decay", [213], [], .field "decay", none⟩,
  ⟨"Plucked", "gate", [213], [], .field "gate", none⟩, ⟨"Plucked", "normalize", [213], [], .field "normalize", none⟩,
  ⟨"Plucked", "widen", [213], [], .field "widen", none⟩,
  -- plugin.py:1119-1132
  ⟨"Soundgoodizer", "amount", [213], [], .field "amount", none⟩,
  ⟨"Soundgoodizer", "mode", [213], [], .field "mode", none⟩]

/-- Mixer (`mixer.py`). -/
def mixerProps : List PropRow := [
  -- mixer.py:314-362
  ⟨"Slot", "color", [128], [], .event, none⟩, ⟨"Slot", "iid", [98], [], .event, none⟩,
  ⟨"Slot", "internal_name", [201], [], .event, none⟩, ⟨"Slot", "icon", [155], [], .event, none⟩,
  ⟨"Slot", "index", [98], [], .event, none⟩, ⟨"Slot", "name", [203], [], .event, none⟩,
  -- mixer.py:375-551
  ⟨"Insert", "bypassed", [236], [], .flag 65535 4 "flags" true, none⟩,
  ⟨"Insert", "channels_swapped", [236], [], .flag 65535 2 "flags" false, none⟩,
  ⟨"Insert", "color", [149], [], .event, none⟩, ⟨"Insert", "enabled", [236], [], .flag 65535 8 "flags" false, none⟩,
  ⟨"Insert", "icon", [95], [], .event, none⟩, ⟨"Insert", "input", [154], [], .event, none⟩,
  ⟨"Insert", "is_solo", [236], [], .flag 65535 4096 "flags" false, none⟩,
  ⟨"Insert", "locked", [236], [], .flag 65535 2048 "flags" false, none⟩, ⟨"Insert", "name", [204], [], .event, none⟩,
  ⟨"Insert", "output", [147], [], .event, none⟩,
  ⟨"Insert", "polarity_reversed", [236], [], .flag 65535 1 "flags" false, none⟩,
  ⟨"Insert", "separator_shown", [236], [], .flag 65535 1024 "flags" false, none⟩,
  -- mixer.py:560-667
  ⟨"Mixer", "apdc", [29], [], .event, none⟩]

/-- Patterns (`pattern.py`). -/
def patternProps : List PropRow := [
  -- pattern.py:234-314
  ⟨"Pattern", "color", [150], [], .event, none⟩, ⟨"Pattern", "length", [164], [], .event, none⟩,
  ⟨"Pattern", "looped", [26], [], .event, some (.lv (.bool false))⟩, ⟨"Pattern", "name", [193], [], .event, none⟩,
  -- pattern.py:317-383
  ⟨"Patterns", "play_cut_notes", [30], [], .event, none⟩]

/-- Time markers (`timemarker.py`). -/
def markerProps : List PropRow := [
  -- timemarker.py:43-82
  ⟨"TimeMarker", "denominator", [34], [], .event, none⟩, ⟨"TimeMarker", "name", [205], [], .event, none⟩,
  ⟨"TimeMarker", "numerator", [33], [], .event, none⟩]

/-- Arrangements (`arrangement.py`). -/
def arrangementProps : List PropRow := [
  -- arrangement.py:248-335
  ⟨"Track", "content_locked", [238], [], .field "content_locked", none⟩,
  ⟨"Track", "enabled", [238], [], .field "enabled", none⟩, ⟨"Track", "grouped", [238], [], .field "grouped", none⟩,
  ⟨"Track", "height", [238], [], .field "height", none⟩, ⟨"Track", "icon", [238], [], .field "icon", none⟩,
  ⟨"Track", "iid", [238], [], .field "iid", none⟩, ⟨"Track", "locked", [238], [], .field "locked", none⟩,
  ⟨"Track", "motion", [238], [], .field "motion", none⟩, ⟨"Track", "name", [239], [], .event, none⟩,
  ⟨"Track", "position_sync", [238], [], .field "position_sync", none⟩,
  ⟨"Track", "press", [238], [], .field "press", none⟩, ⟨"Track", "tolerant", [238], [], .field "tolerant", none⟩,
  ⟨"Track", "trigger_sync", [238], [], .field "trigger_sync", none⟩,
  ⟨"Track", "queued", [238], [], .field "queued", none⟩,
  -- arrangement.py:344-399
  ⟨"Arrangement", "iid", [99], [], .event, none⟩, ⟨"Arrangement", "name", [241], [], .event, none⟩,
  -- arrangement.py:403-425
  ⟨"TimeSignature", "num", [17], [], .event, none⟩, ⟨"TimeSignature", "beat", [18], [], .event, none⟩]

/-- The project (`project.py`). -/
def projectProps : List PropRow := [
  -- project.py:144-545
  ⟨"Project", "artists", [207], [], .event, none⟩, ⟨"Project", "comments", [195, 198], [], .event, none⟩,
  ⟨"Project", "genre", [206], [], .event, none⟩, ⟨"Project", "licensed", [28], [], .event, none⟩,
  ⟨"Project", "looped", [9], [], .event, none⟩, ⟨"Project", "main_pitch", [80], [], .event, none⟩,
  ⟨"Project", "main_volume", [12], [], .event, none⟩, ⟨"Project", "pan_law", [23], [], .event, none⟩,
  ⟨"Project", "show_info", [10], [], .event, none⟩, ⟨"Project", "title", [194], [], .event, none⟩,
  ⟨"Project", "url", [197], [], .event, none⟩]

/-- All of them. -/
def propTable : List PropRow :=
  channelProps ++ pluginProps ++ mixerProps ++ patternProps ++ markerProps ++ arrangementProps ++ projectProps

/-- The classes of plugins and the type of their data event: `PluginProp.__get__` (`plugin.py:424-439`) makes a model of
one of these classes only for a data event of this type. -/
def pluginClasses : List (String × Kind) := [
  ("BooBass", .struct .booBass), ("FruitKick", .struct .fruitKick), ("FruityBalance", .struct .fruityBalance),
  ("FruityBloodOverdrive", .struct .fruityBloodOverdrive), ("FruityCenter", .struct .fruityCenter),
  ("FruityFastDist", .struct .fruityFastDist), ("FruitySend", .struct .fruitySend),
  ("FruitySoftClipper", .struct .fruitySoftClipper), ("FruityStereoEnhancer", .struct .fruityStereoEnhancer),
  ("Plucked", .struct .plucked), ("Soundgoodizer", .struct .soundgoodizer)]

end PyFLP
