import Verif.Construct
import Verif.Utf8
/-!
# The `STRUCT` tables

Transcription of every `STRUCT` of the library.  Flat structs are `Fields`
tables; the three nested ones (automation, notebook, VST) have their own
functions.  `.compile()` matters only for `c.Bytes` outside `c.Optional`
(`Leaf.rawC`).
-/

namespace PyFLP

/-- The flat `StructEventBase` subclasses. -/
inductive SName
  | delay | envelopeLFO | levelAdjusts | levels | parameters | polyphony | tracking
  | insertFlags | plSelection | track | timestamp | wrapper
  | midiController | remoteController
  | booBass | fruitKick | fruityBalance | fruityBloodOverdrive | fruityCenter | fruityFastDist
  | fruitySend | fruitySoftClipper | fruityStereoEnhancer | plucked | soundgoodizer
  deriving DecidableEq, Repr

/-- The `ListEventBase` subclasses whose items are structs. -/
inductive LName
  | controller | notes | mixerParams | playlist
  deriving DecidableEq, Repr

/-- `c.Int8ul`/`c.Byte`, `c.Int16ul`, `c.Int32ul`, `c.Int32sl`, `c.Int16sl`. -/
def u8 : Leaf := .int 1 false
@[inherit_doc u8] def u16 : Leaf := .int 2 false
@[inherit_doc u8] def u32 : Leaf := .int 4 false
@[inherit_doc u8] def i32 : Leaf := .int 4 true
@[inherit_doc u8] def i16 : Leaf := .int 2 true

/-- The `STRUCT` of every flat struct event. -/
def SName.fields : SName → Fields
  -- channel.py:122-129
  | .delay => [
      ("feedback", .opt u32), ("pan", .opt i32), ("pitch_shift", .opt i32),
      ("echoes", .opt u32), ("time", .opt u32)]
  -- channel.py:150-170 (`_EnvLFOFlags`, 132-137, has the bits 0, 1, 2 and 5)
  | .envelopeLFO => [
      ("flags", .opt (.flagsS 39)), ("envelope.enabled", .opt i32), ("envelope.predelay", .opt i32),
      ("envelope.attack", .opt i32), ("envelope.hold", .opt i32), ("envelope.decay", .opt i32),
      ("envelope.sustain", .opt i32), ("envelope.release", .opt i32), ("envelope.amount", .opt i32),
      ("lfo.predelay", .opt u32), ("lfo.attack", .opt u32), ("lfo.amount", .opt i32),
      ("lfo.speed", .opt u32), ("lfo.shape", .opt i32), ("envelope.attack_tension", .opt i32),
      ("envelope.decay_tension", .opt i32), ("envelope.release_tension", .opt i32)]
  -- channel.py:172-179
  | .levelAdjusts => [
      ("pan", .opt i32), ("volume", .opt u32), ("_u1", .opt u32), ("mod_x", .opt i32),
      ("mod_y", .opt i32)]
  -- channel.py:193-201
  | .levels => [
      ("pan", .opt i32), ("volume", .opt u32), ("pitch_shift", .opt i32), ("filter.mod_x", .opt u32),
      ("filter.mod_y", .opt u32), ("filter.type", .opt u32)]
  -- channel.py:247-287
  | .parameters => [
      ("_u1", .opt (.raw 9)), ("fx.remove_dc", .opt .flag), ("delay.flags", .opt u8),
      ("keyboard.main_pitch", .opt .flag), ("_u2", .opt (.raw 28)), ("arp.direction", .opt u32),
      ("arp.range", .opt u32), ("arp.chord", .opt u32), ("arp.time", .opt .f32),
      ("arp.gate", .opt .f32), ("arp.slide", .opt .flag), ("_u3", .opt (.raw 1)),
      ("time.full_porta", .opt .flag), ("keyboard.add_root", .opt .flag), ("time.gate", .opt u16),
      ("_u4", .opt (.raw 2)), ("keyboard.key_region", .opt .pair32), ("_u5", .opt (.raw 4)),
      ("fx.normalize", .opt .flag), ("fx.inverted", .opt .flag), ("_u6", .opt (.raw 1)),
      ("content.declick_mode", .opt u8), ("fx.crossfade", .opt u32), ("fx.trim", .opt u32),
      ("arp.repeat", .opt u32), ("stretching.time", .opt .musical), ("stretching.pitch", .opt i32),
      ("stretching.multiplier", .opt .log2), ("stretching.mode", .opt i32), ("_u7", .opt (.raw 21)),
      ("fx.start", .opt .logNormal), ("_u8", .opt (.raw 4)), ("fx.length", .opt .logNormal),
      ("_u9", .opt (.raw 3)), ("playback.start_offset", .opt u32), ("_u10", .opt (.raw 5)),
      ("fx.fix_trim", .opt .flag), ("_extra", .req .greedy)]
  -- channel.py:297-302
  | .polyphony => [("max", .opt u32), ("slide", .opt u32), ("flags", .opt u8)]
  -- channel.py:305-311
  | .tracking => [
      ("middle_value", .opt u32), ("pan", .opt i32), ("mod_x", .opt i32), ("mod_y", .opt i32)]
  -- mixer.py:105-110
  | .insertFlags => [("_u1", .opt (.raw 4)), ("flags", .opt u32), ("_u2", .opt (.raw 4))]
  -- arrangement.py:66-67
  | .plSelection => [("start", .opt u32), ("end", .opt u32)]
  -- arrangement.py:131-149
  | .track => [
      ("iid", .opt u32), ("color", .opt u32), ("icon", .opt u32), ("enabled", .opt .flag),
      ("height", .opt .height), ("locked_height", .opt i32), ("content_locked", .opt .flag),
      ("motion", .opt u32), ("press", .opt u32), ("trigger_sync", .opt u32),
      ("queued", .opt .fourBool), ("tolerant", .opt .fourBool), ("position_sync", .opt u32),
      ("grouped", .opt .flag), ("locked", .opt .flag), ("_u1", .opt .greedy)]
  -- project.py:65-66
  | .timestamp => [("created_on", .req .f64), ("time_spent", .req .f64)]
  -- plugin.py:212-222
  | .wrapper => [
      ("_u1", .opt (.raw 16)), ("flags", .opt u16), ("_u2", .opt (.raw 2)), ("page", .opt u8),
      ("_u3", .opt (.raw 23)), ("width", .opt u32), ("height", .opt u32), ("_extra", .req .greedy)]
  -- controller.py:29-30
  | .midiController => [("_u1", .req .greedy)]
  -- controller.py:33-42
  | .remoteController => [
      ("_u1", .opt (.raw 2)), ("_u2", .opt u8), ("_u3", .opt u8), ("parameter_data", .opt u16),
      ("destination_data", .opt i16), ("_u4", .opt (.raw 8)), ("_u5", .opt (.raw 4))]
  -- plugin.py:76-82
  | .booBass => [("_u1", .ifLen 16 (.rawC 4)), ("bass", .req u32), ("mid", .req u32), ("high", .req u32)]
  -- plugin.py:85-95
  | .fruitKick => [
      ("_u1", .req (.rawC 4)), ("max_freq", .req i32), ("min_freq", .req i32), ("freq_decay", .req u32),
      ("amp_decay", .req u32), ("click", .req u32), ("distortion", .req u32), ("_u2", .req (.rawC 4))]
  -- plugin.py:98-99
  | .fruityBalance => [("pan", .req u32), ("volume", .req u32)]
  -- plugin.py:102-113
  | .fruityBloodOverdrive => [
      ("plugin_marker", .ifLen 36 (.rawC 4)), ("pre_band", .req u32), ("color", .req u32),
      ("pre_amp", .req u32), ("x100", .req .fourBool), ("post_filter", .req u32),
      ("post_gain", .req u32), ("_u1", .req (.rawC 4)), ("_u2", .req (.rawC 4))]
  -- plugin.py:116-119
  | .fruityCenter => [("_u1", .ifLen 8 (.rawC 4)), ("enabled", .req .fourBool)]
  -- plugin.py:122-129
  | .fruityFastDist => [
      ("pre", .req u32), ("threshold", .req u32), ("kind", .req u32), ("mix", .req u32),
      ("post", .req u32)]
  -- plugin.py:150-156
  | .fruitySend => [("pan", .req i32), ("dry", .req u32), ("volume", .req u32), ("send_to", .req i32)]
  -- plugin.py:159-160
  | .fruitySoftClipper => [("threshold", .req u32), ("post", .req u32)]
  -- plugin.py:163-171
  | .fruityStereoEnhancer => [
      ("pan", .req i32), ("volume", .req u32), ("stereo_separation", .req u32),
      ("phase_offset", .req u32), ("effect_position", .req u32), ("phase_inversion", .req u32)]
  -- plugin.py:174-181
  | .plucked => [
      ("decay", .req u32), ("color", .req u32), ("normalize", .req .fourBool), ("gate", .req .fourBool),
      ("widen", .req .fourBool)]
  -- plugin.py:184-189
  | .soundgoodizer => [("_u1", .ifLen 12 (.rawC 4)), ("mode", .req u32), ("amount", .req u32)]

/-- The item struct of every list event. -/
def LName.fields : LName → Fields
  -- pattern.py:49-59
  | .controller => [
      ("position", .req u32), ("_u1", .req u8), ("_u2", .req u8), ("channel", .req u8),
      ("_flags", .req u8), ("value", .req .f32)]
  -- pattern.py:67-85
  | .notes => [
      ("position", .req u32), ("flags", .req u16), ("rack_channel", .req u16), ("length", .req u32),
      ("key", .req u16), ("group", .req u16), ("fine_pitch", .req u8), ("_u1", .req u8),
      ("release", .req u8), ("midi_channel", .req u8), ("pan", .req u8), ("velocity", .req u8),
      ("mod_x", .req u8), ("mod_y", .req u8)]
  -- mixer.py:125-134
  | .mixerParams => [
      ("_u4", .req (.raw 4)), ("id", .req u8), ("_u1", .req u8), ("channel_data", .req u16),
      ("msg", .req i32)]
  -- arrangement.py:70-86
  | .playlist => [
      ("position", .req u32), ("pattern_base", .req u16), ("item_index", .req u16),
      ("length", .req u32), ("track_rvidx", .req u16), ("group", .req u16), ("_u1", .req (.raw 2)),
      ("item_flags", .req u16), ("_u2", .req (.raw 4)), ("start_offset", .req .f32),
      ("end_offset", .req .f32), ("_u3", .ifNew (.raw 28))]

/-! ### Automation (`channel.py:84-119`) -/

/-- Fields before the points. -/
def autoHead : Fields := [
  ("_u1", .req (.raw 4)), ("lfo.amount", .req i32), ("_u2", .req (.raw 1)), ("_u3", .req (.raw 2)),
  ("_u4", .req (.raw 2)), ("_u5", .req (.raw 4))]

/-- One point.  `position` is a `c.Computed` field: it is derived from the
offsets when parsing and writes nothing, so it is not part of the stored value
(see `autoPosition` in `Channel.lean`). -/
def autoPoint : Fields := [
  ("_offset", .req .f64), ("value", .req .f64), ("tension", .req .f32), ("_u1", .req (.raw 4))]

/-! ### Notebook pages (`plugin.py:132-147`) -/

/-- A page; the one with index `-1` stops before its text. -/
inductive Page
  | stop
  | text (index : Int) (length : Nat) (value : PStr)
  deriving DecidableEq, Repr

/-- `NullStripped(GreedyBytes, pad=b"\0\0")` on an even number of bytes. -/
def stripPad : Bytes → Bytes
  | a :: b :: rest =>
    match stripPad rest with
    | [] => if a = 0 ∧ b = 0 then [] else [a, b]
    | r => a :: b :: r
  | bs => bs

/-- One page.  `c.StopIf` ends the struct early, it does not end the range. -/
def pageParse (bs : Bytes) : Py (Page × Bytes) :=
  match intParse 4 true bs with
  | .error e => .error e
  | .ok (i, r) =>
    if i = -1 then .ok (.stop, r)
    else
      match varParse r with
      | .error e => .error e
      | .ok (n, r') =>
        if r'.length < n * 2 then .error .streamError
        else
          match utf16Decode (stripPad (r'.take (n * 2))) with
          | .error e => .error e
          | .ok s => .ok (.text i n s, r'.drop (n * 2))

/-- Building a page: `FixedSized` refuses longer data and pads with zeros.
A page object whose index is `-1` stops after the index. -/
def pageBuild : Page → Py Bytes
  | .stop => intBuild 4 true (-1)
  | .text i n s =>
    match intBuild 4 true i with
    | .error e => .error e
    | .ok b =>
      if i = -1 then .ok b
      else
        match utf16Encode s with
        | .error e => .error e
        | .ok t =>
          if n * 2 < t.length then .error .constructError
          else .ok (b ++ varBuild n ++ t ++ List.replicate (n * 2 - t.length) 0)

/-! ### VST wrapper data (`plugin.py:225-324`) -/

/-- `_MIDIStruct`, `plugin.py:271-276`. -/
def vstMidi : Fields := [
  ("input", .opt i32), ("output", .opt i32), ("pb_range", .opt u32), ("_extra", .req .greedy)]

/-- `_FlagsStruct`, `plugin.py:278-285`. -/
def vstFlags : Fields := [
  ("_u1", .opt (.raw 9)), ("flags", .opt u32), ("flags2", .opt u32), ("_u2", .opt (.raw 5)),
  ("fast_idle", .opt .flag), ("_extra", .req .greedy)]

/-- Data of one sub-event.  Parsing never gives a plain number or boolean (`lv`); an assignment does
(`plugin.py:475-478`). -/
inductive VstData
  | fields (r : Rec)
  | str (s : PStr)
  | raw (bs : Bytes)
  | lv (x : LV)
  deriving DecidableEq, Repr

/-- Sub-event IDs stored as UTF-8 text (`FourCC`, `Name`, `PluginPath`,
`Vendor`; `plugin.py:233-238, 303-306`). -/
def vstIsText (id : Int) : Bool := id = 51 || id = 54 || id = 55 || id = 56

variable [FloatEnv]

/-- `c.Switch(c.this["id"], ...)`, `plugin.py:298-309`. -/
def vstDataParse (id : Int) (bs : Bytes) : Py VstData :=
  if id = 1 then (structParse ⟨0⟩ vstMidi bs).map fun x => .fields x.1
  else if id = 2 then (structParse ⟨0⟩ vstFlags bs).map fun x => .fields x.1
  else if vstIsText id then (utf8Decode bs).map .str
  else .ok (.raw bs)

@[inherit_doc vstDataParse]
def vstDataBuild (id : Int) (d : VstData) : Py Bytes :=
  if id = 1 then
    match d with | .fields r => structBuild ⟨0⟩ vstMidi r | _ => .error .typeError
  else if id = 2 then
    match d with | .fields r => structBuild ⟨0⟩ vstFlags r | _ => .error .typeError
  else if vstIsText id then
    match d with | .str s => utf8Encode s | _ => .error .typeError
  else
    match d with | .raw bs => .ok bs | _ => .error .typeError

/-- One sub-event: 4-byte id, 8-byte length, data (`plugin.py:291-311`). -/
def vstItemParse (bs : Bytes) : Py ((Int × VstData) × Bytes) :=
  match intParse 4 false bs with
  | .error e => .error e
  | .ok (id, r) =>
    match intParse 8 false r with
    | .error e => .error e
    | .ok (n, r') =>
      if r'.length < n.toNat then .error .streamError
      else
        match vstDataParse id (r'.take n.toNat) with
        | .error e => .error e
        | .ok d => .ok ((id, d), r'.drop n.toNat)

/-- Building `id`, then `c.Prefixed(len, data)`: the data is built first, its
length is written before it. -/
def prefixedBuild (id data : Py Bytes) (len : Bytes → Py Bytes) : Py Bytes :=
  match id with
  | .error e => .error e
  | .ok a =>
    match data with
    | .error e => .error e
    | .ok d =>
      match len d with
      | .error e => .error e
      | .ok l => .ok (a ++ l ++ d)

@[inherit_doc vstItemParse]
def vstItemBuild (x : Int × VstData) : Py Bytes :=
  prefixedBuild (intBuild 4 false x.1) (vstDataBuild x.1 x.2) fun d => intBuild 8 false (d.length : Int)

/-! ### Generic repetition -/

/-- `c.GreedyRange(item)` for an arbitrary item parser: stop at the first
failure and rewind. -/
def manyParse {α : Type} (p : Bytes → Py (α × Bytes)) (bs : Bytes) : List α × Bytes :=
  match p bs with
  | .error _ => ([], bs)
  | .ok (a, r) =>
    if r.length < bs.length then
      let (as, r') := manyParse p r
      (a :: as, r')
    else ([], bs)
termination_by bs.length

@[inherit_doc manyParse]
def manyBuild {α : Type} (b : α → Py Bytes) : List α → Py Bytes
  | [] => .ok []
  | a :: as =>
    match b a with
    | .error e => .error e
    | .ok x =>
      match manyBuild b as with
      | .error e => .error e
      | .ok y => .ok (x ++ y)

/-- `item[n]`: exactly `n` items. -/
def timesParse (cx : Ctx) (fs : Fields) : Nat → Bytes → Py (List Rec × Bytes)
  | 0, bs => .ok ([], bs)
  | n + 1, bs =>
    match structParse cx fs bs with
    | .error e => .error e
    | .ok (a, r) =>
      match timesParse cx fs n r with
      | .error e => .error e
      | .ok (as, r') => .ok (a :: as, r')

end PyFLP
