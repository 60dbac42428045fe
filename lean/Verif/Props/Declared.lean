import Verif.Declared
import Verif.EventIds
import Verif.PropTable
import Verif.Plugins
import Verif.Props.PropTable
import Verif.Props.ItemsSaved
/-!
# The tables of the model are the declarations of the program

`Declared.lean` is generated from the text of the program.  This file says what each declaration means (`Spec`) and
proves that the tables the theorems are about are exactly the declared ones: event ids and their types (C14), structs
(C38), properties (C75), plugin classes (C92) and VST properties (C87, C89).
-/

namespace PyFLP
open Declared

namespace Spec

/-- The event class of this name; the text and data events without a declared class are chosen by id and version. -/
def eventClass : String → Option Kind
  | "BoolEvent" => some .bool
  | "I8Event" => some .i8
  | "U8Event" => some .u8
  | "I16Event" => some .i16
  | "U16Event" => some .u16
  | "F32Event" => some .f32
  | "I32Event" => some .i32
  | "U32Event" => some .u32
  | "U16TupleEvent" => some .u16t
  | "ColorEvent" => some .color
  | "AsciiEvent" => some .ascii
  | "UnicodeEvent" => some .unicode
  | "AutomationEvent" => some .automation
  | "InsertRoutingEvent" => some .routing
  | "FruityNotebook2Event" => some .notebook
  | "VSTPluginEvent" => some .vst
  | "ControllerEvent" => some (.list .controller)
  | "NotesEvent" => some (.list .notes)
  | "MixerParamsEvent" => some (.list .mixerParams)
  | "PlaylistEvent" => some (.list .playlist)
  | "DelayEvent" => some (.struct .delay)
  | "EnvelopeLFOEvent" => some (.struct .envelopeLFO)
  | "LevelAdjustsEvent" => some (.struct .levelAdjusts)
  | "LevelsEvent" => some (.struct .levels)
  | "ParametersEvent" => some (.struct .parameters)
  | "PolyphonyEvent" => some (.struct .polyphony)
  | "TrackingEvent" => some (.struct .tracking)
  | "InsertFlagsEvent" => some (.struct .insertFlags)
  | "PLSelectionEvent" => some (.struct .plSelection)
  | "TrackEvent" => some (.struct .track)
  | "TimestampEvent" => some (.struct .timestamp)
  | "WrapperEvent" => some (.struct .wrapper)
  | "MIDIControllerEvent" => some (.struct .midiController)
  | "RemoteControllerEvent" => some (.struct .remoteController)
  | "BooBassEvent" => some (.struct .booBass)
  | "FruitKickEvent" => some (.struct .fruitKick)
  | "FruityBalanceEvent" => some (.struct .fruityBalance)
  | "FruityBloodOverdriveEvent" => some (.struct .fruityBloodOverdrive)
  | "FruityCenterEvent" => some (.struct .fruityCenter)
  | "FruityFastDistEvent" => some (.struct .fruityFastDist)
  | "FruitySendEvent" => some (.struct .fruitySend)
  | "FruitySoftClipperEvent" => some (.struct .fruitySoftClipper)
  | "FruityStereoEnhancerEvent" => some (.struct .fruityStereoEnhancer)
  | "PluckedEvent" => some (.struct .plucked)
  | "SoundgoodizerEvent" => some (.struct .soundgoodizer)
  | _ => none

/-- The members of an id class with their event classes. -/
def idClass (cls : String) : List (Nat × Option Kind) :=
  (events.filter fun d => d.cls == cls).map fun d => (d.id, eventClass d.type)

/-- The number of a member of an id class. -/
def idOf (m : String × String) : Option Nat := (events.find? fun d => d.cls == m.1 && d.member == m.2).map EventDecl.id

/-- The bits of a flag. -/
def flagValue (m : String × String) : Option Nat := (flags.find? fun d => d.cls == m.1 && d.member == m.2).map FlagDecl.value

/-- The bits of all flags of a class. -/
def flagMask (cls : String) : Nat := (flags.filter fun d => d.cls == cls).foldl (fun n d => n ||| d.value) 0

/-- What a construct reads and writes.  `compiled`: in a compiled struct and not in `c.Optional`, where `c.Bytes` does not
check the length.  Enumerations keep every number, except that a signed `IntFlag` does not keep negative ones. -/
def conLeaf (compiled : Bool) : Con → Option Leaf
  | .prim "Byte" => some (.int 1 false)
  | .prim "Int8ul" => some (.int 1 false)
  | .prim "Int16ul" => some (.int 2 false)
  | .prim "Int16sl" => some (.int 2 true)
  | .prim "Int32ul" => some (.int 4 false)
  | .prim "Int32sl" => some (.int 4 true)
  | .prim "Float32l" => some .f32
  | .prim "Float64l" => some .f64
  | .prim "Flag" => some .flag
  | .prim "GreedyBytes" => some .greedy
  | .prim "FourByteBool" => some .fourBool
  | .bytes n => some (if compiled then .rawC n else .raw n)
  | .stdEnum cls (.prim "Int32sl") =>
    some (if flags.any fun d => d.cls == cls then .flagsS (flagMask cls) else .int 4 true)
  | .stdEnum _ c => conLeaf compiled c
  | .enum c => conLeaf compiled c
  | .adapt "HeightAdapter" (.prim "Float32l") => some .height
  | .adapt "List2Tuple" (.array (.prim "Int32ul") 2) => some .pair32
  | .adapt "LinearMusical" (.prim "Int32ul") => some .musical
  | .adapt "Log2(10000)" (.prim "Int32sl") => some .log2
  | .adapt "LogNormal((0, 61440))" (.array (.prim "Int16ul") 2) => some .logNormal
  | _ => none

/-- A field. -/
def conField (compiled : Bool) : Con → Option Fld
  | .optional c => (conLeaf false c).map .opt
  | .cond "c.this._.len == 16" c => (conLeaf compiled c).map (.ifLen 16)
  | .cond "c.this._.len == 36" c => (conLeaf compiled c).map (.ifLen 36)
  | .cond "c.this._.len == 8" c => (conLeaf compiled c).map (.ifLen 8)
  | .cond "c.this._.len == 12" c => (conLeaf compiled c).map (.ifLen 12)
  | .cond "c.this._params[new]" c => (conLeaf compiled c).map .ifNew
  | c => (conLeaf compiled c).map .req

/-- A struct. -/
def structFields (d : StructDecl) : Option Fields := d.fields.mapM fun f => (conField d.compiled f.2).map fun x => (f.1, x)

/-- The fields that the model gives to an event class: a struct, or the records of a list. -/
def kindFields : Kind → Option (Bool × Fields)
  | .struct s => some (false, s.fields)
  | .list l => some (true, l.fields)
  | _ => none

/-- The property table has every declared property, except those of items (notes, controllers, playlist items,
automation points) and of `FruityNotebook2` and `PluginIOInfo`. -/
def inTable (d : PropDecl) : Bool :=
  !(["ItemModel[AutomationEvent]", "ItemModel[NotesEvent]", "ItemModel[ControllerEvent]", "ItemModel[PlaylistEvent]"].contains
    d.base) && !(["FruityNotebook2", "PluginIOInfo"].contains d.cls)

/-- The events of a property: those given, the wrapper event for wrapper flags, the data event for native plugins. -/
def propIds (d : PropDecl) : Option (List Nat) :=
  match d.descr with
  | "_WrapperProp" => (idOf ("PluginID", "Wrapper")).map fun n => [n]
  | "_NativePluginProp" => (idOf ("PluginID", "Data")).map fun n => [n]
  | _ => d.events.mapM idOf

/-- What a property stands for: the value of the event, the field named by `prop` or else by the attribute, the flag in
the field named by `prop` or else in `flags`. -/
def propAccess (d : PropDecl) : Option Access :=
  match d.descr, d.flag with
  | "EventProp", none => some .event
  | "StructProp", none => some (.field (d.prop.getD d.attr))
  | "_NativePluginProp", none => some (.field (d.prop.getD d.attr))
  | "FlagProp", some f => (flagValue f).map fun n => .flag (flagMask f.1) n (d.prop.getD "flags") d.inverted
  | "_WrapperProp", some f => (flagValue f).map fun n => .flag (flagMask f.1) n (d.prop.getD "flags") d.inverted
  | _, _ => none

/-- Default values. -/
def propDefault (d : PropDecl) : Option (Option Value) :=
  match d.default with
  | "" => some none
  | "60" => some (some (.lv (.int 60)))
  | "False" => some (some (.lv (.bool false)))
  | _ => none

end Spec

open Spec

/-- C14. The id classes of the model have the declared members with the declared event classes. -/
theorem C14_declared : enums = ["PluginID", "ChannelID", "DisplayGroupID", "RackID", "TimeMarkerID", "PatternsID", "PatternID",
    "ArrangementsID", "ArrangementID", "TrackID", "InsertID", "MixerID", "SlotID", "ProjectID"].map idClass ∧
    controllerID = idClass "ControllerID" := by
  decide +kernel

/-- C38. The fields of every struct event and of the records of every list event are the declared ones, in their order,
and every struct of the model is declared. -/
theorem C38_declared : (∀ d ∈ structs, ∃ k, eventClass d.cls = some k ∧ (structFields d).isSome ∧
      kindFields k = (structFields d).map fun fs => (d.greedy, fs)) ∧
    ∀ k fs, kindFields k = some fs → ∃ d ∈ structs, eventClass d.cls = some k := by
  constructor
  · have h : structs.all (fun d => match eventClass d.cls with
      | some k => (structFields d).isSome && (kindFields k == (structFields d).map fun fs => (d.greedy, fs))
      | none => false) = true := by decide +kernel
    intro d hd
    have := List.all_eq_true.1 h d hd
    split at this
    · next k hk =>
      rw [Bool.and_eq_true, beq_iff_eq] at this
      exact ⟨k, hk, this⟩
    · cases this
  · intro k fs h
    have hs : ∀ s : SName, structs.any (fun d => eventClass d.cls == some (.struct s)) = true := by
      intro s; cases s <;> decide +kernel
    have hl : ∀ l : LName, structs.any (fun d => eventClass d.cls == some (.list l)) = true := by
      intro l; cases l <;> decide +kernel
    unfold kindFields at h
    split at h
    · next s =>
      obtain ⟨d, hd, he⟩ := List.any_eq_true.1 (hs s)
      exact ⟨d, hd, by simpa using he⟩
    · next l =>
      obtain ⟨d, hd, he⟩ := List.any_eq_true.1 (hl l)
      exact ⟨d, hd, by simpa using he⟩
    · cases h

/-- C75. The property table has every declared property and no other, with the declared events, fields, flags, inversion
and default values. -/
theorem C75_declared :
    (arrangementProps ++ channelProps ++ mixerProps ++ patternProps ++ pluginProps ++ projectProps ++ markerProps).map
      (fun p => (p.cls, p.attr, some p.ids, some p.acc)) =
    (props.filter inTable).map (fun d => (d.cls, d.attr, propIds d, propAccess d)) ∧
    (arrangementProps ++ channelProps ++ mixerProps ++ patternProps ++ pluginProps ++ projectProps ++ markerProps).map
      (fun p => some p.default) = (props.filter inTable).map propDefault ∧
    ∀ d ∈ props.filter inTable, d.readonly = false := by
  refine ⟨by decide +kernel, by decide +kernel, by decide +kernel⟩

/-- C75. The models whose properties have no event ids have the events of the `NestedProp` that makes them. -/
theorem C75_nested : ∀ p ∈ propTable, ∀ d ∈ nested, d.model = p.cls → p.ids = [] → some p.view = d.events.mapM idOf := by
  have h : propTable.all (fun p => nested.all fun d =>
      !(d.model == p.cls) || !(p.ids == []) || decide (some p.view = d.events.mapM idOf)) = true := by decide +kernel
  intro p hp d hd h1 h2
  have := List.all_eq_true.1 (List.all_eq_true.1 h p hp) d hd
  simpa [h1, h2] using this

/-- C92. The plugin classes have the declared internal names and data events, and the classes of `Instrument.plugin` and
`Slot.plugin` are the declared ones. -/
theorem C92_declared : nativePlugins = plugins.map (fun d => (PStr.lit d.internalName, (eventClass d.type).getD .unknown)) ∧
    (∀ t : PluginType, t.internalName = (plugins.find? fun d => eventClass d.type == some t.kind).map
      fun d => PStr.lit d.internalName) ∧
    choices.map (fun d => d.types.map fun n => (plugins.find? fun p => p.cls == n).bind fun p => eventClass p.type) =
      [instrumentPlugins, slotPlugins].map (fun ts => ts.map fun t => some t.kind) := by
  refine ⟨by decide +kernel, ?_, by decide +kernel⟩
  intro t
  cases t <;> decide +kernel

namespace Spec

/-- The name of a group of options of `VSTPlugin`. -/
def vstGroup : String → String
  | "_AutomationOptions" => "automation."
  | "_CompatibilityOptions" => "compatibility."
  | "_MIDIOptions" => "midi."
  | "_ProcessingOptions" => "processing."
  | "_UIOptions" => "ui."
  | _ => ""

end Spec

/-- C87, C88. The VST properties stand for the declared sub-events. -/
theorem C87_declared : vstProps.map (fun p => (p.1, some p.2.1, p.2.2)) =
    (vst.filter fun d => d.descr == "_VSTPluginProp").map (fun d => (vstGroup d.cls ++ d.attr,
      (subevents.lookup d.what.2).map fun n => (n : Int), d.prop.getD d.attr)) := by
  decide +kernel

/-- C89. The VST flags are the declared ones. -/
theorem C89_declared : vstFlagProps.map (fun f => (f.attr, f.key, some (2 ^ f.bit), f.inverted)) =
    (vst.filter fun d => d.descr == "_VSTFlagProp").map (fun d => (vstGroup d.cls ++ d.attr, d.prop.getD "flags",
      flagValue d.what, d.inverted)) := by
  decide +kernel

/-! ## C40: items -/

namespace Spec

/-- The records that the items of a class stand for. -/
def itemFields : String → Option Fields
  | "ItemModel[NotesEvent]" => some LName.notes.fields
  | "ItemModel[ControllerEvent]" => some LName.controller.fields
  | "ItemModel[PlaylistEvent]" => some LName.playlist.fields
  | "ItemModel[AutomationEvent]" => some autoPoint
  | _ => none

end Spec

/-- C40. Every property of a note, controller, playlist item or automation point is a field of its record, except
`muted` (see C69) and the computed and read-only `position` of automation points (see C84). -/
theorem C40_declared : ∀ d ∈ props, ∀ fs, itemFields d.base = some fs →
    (d.cls, d.attr) = ("PLItemBase", "muted") ∨ (d.cls, d.attr) = ("AutomationPoint", "position") ∨
    (d.descr = "StructProp" ∧ d.prop = none ∧ d.readonly = false ∧ ∃ l, (d.attr, Fld.req l) ∈ fs) ∨
    ((d.cls, d.attr) = ("Note", "slide") ∧ d.flag.bind flagValue = some 8 ∧ ("flags", Fld.req u16) ∈ fs) := by
  have h : props.all (fun d => match itemFields d.base with
      | none => true
      | some fs => (d.cls, d.attr) == ("PLItemBase", "muted") || (d.cls, d.attr) == ("AutomationPoint", "position") ||
          (d.descr == "StructProp" && d.prop == none && d.readonly == false && fs.any fun f => f.1 == d.attr &&
            match f.2 with | .req _ => true | _ => false) ||
          ((d.cls, d.attr) == ("Note", "slide") && d.flag.bind flagValue == some 8 && fs.contains ("flags", Fld.req u16))) =
      true := by decide +kernel
  intro d hd fs hf
  have := List.all_eq_true.1 h d hd
  rw [hf] at this
  simp only [Bool.or_eq_true, Bool.and_eq_true, beq_iff_eq, List.any_eq_true, List.contains_iff_mem] at this
  rcases this with ((h | h) | ⟨⟨⟨h1, h2⟩, h3⟩, x, hx, h4, h5⟩) | ⟨⟨h1, h2⟩, h3⟩
  · exact .inl h
  · exact .inr (.inl h)
  · obtain ⟨n, f⟩ := x
    cases f with
    | req l => exact .inr (.inr (.inl ⟨h1, h2, h3, l, by rw [← h4]; exact hx⟩))
    | _ => cases h5
  · exact .inr (.inr (.inr ⟨h1, h2, h3⟩))

/-! ## C105: the class of every event -/

namespace Spec

/-- Ids that the modules loaded by `import pyflp` declare: `controller.py` is not loaded. -/
def loaded : List EventDecl := events.filter fun d => d.cls != "ControllerID"

end Spec

theorem enumType_loaded {id : Nat} (h : id < 256) :
    enumType enums id = (loaded.find? fun d => d.id == id).bind fun d => eventClass d.type := by
  have : ∀ n ∈ List.range 256, enumType enums n = (loaded.find? fun d => d.id == n).bind fun d => eventClass d.type := by
    decide +kernel
  exact this id (List.mem_range.2 h)

theorem loaded_unique : ∀ d ∈ loaded, loaded.find? (fun x => x.id == d.id) = some d ∧
    (d.type = "" ∨ (eventClass d.type).isSome) := by
  decide +kernel

/-- C105 of the modules that `import pyflp` loads: every event of a parsed file is of the class declared for its id; ids
without one are read as an unsigned number of the size that belongs to the id, a text, the data of a plugin (213, see C18)
or raw bytes.  Missing: ids that other modules declare. -/
theorem C105_class_partial [FloatEnv] {file : Bytes} {p : Project} (h : parseFile file = .ok p) {e : Event}
    (he : e ∈ p.events) :
    (∀ d ∈ loaded, d.id = e.id → d.type ≠ "" → eventClass d.type = some e.kind) ∧
    ((∀ d ∈ loaded, d.id = e.id → d.type = "") →
      (e.id < 64 → e.kind = .u8) ∧ (64 ≤ e.id → e.id < 128 → e.kind = .u16) ∧ (128 ≤ e.id → e.id < 192 → e.kind = .u32) ∧
      (192 ≤ e.id ∧ e.id < 208 ∨ e.id ∈ [231, 239, 241] → e.kind = .ascii ∨ e.kind = .unicode) ∧
      (208 ≤ e.id → e.id ∉ [213, 231, 239, 241] → e.kind = .unknown)) := by
  obtain ⟨pre, post, hs⟩ := List.append_of_mem he
  obtain ⟨h1, h2, _⟩ := parseFile_wellTyped h pre e post hs
  unfold kindOf at h2
  rw [enumType_loaded h1] at h2
  constructor
  · intro d hd hid ht
    obtain ⟨u1, u2⟩ := loaded_unique d hd
    rw [hid] at u1
    rw [u1, Option.bind_some] at h2
    rcases u2 with u2 | u2
    · exact absurd u2 ht
    · obtain ⟨k, hk⟩ := Option.isSome_iff_exists.1 u2
      rw [hk] at h2 ⊢
      exact h2
  · intro hn
    have hnone : (loaded.find? fun d => d.id == e.id).bind (fun d => eventClass d.type) = none := by
      cases hf : loaded.find? fun d => d.id == e.id with
      | none => rfl
      | some d =>
        have := hn d (List.mem_of_find?_eq_some hf) (by simpa using List.find?_some hf)
        rw [Option.bind_some, this]
        rfl
    rw [hnone] at h2
    dsimp only at h2
    have ht : ∀ k, textKind pre = some k → k = .ascii ∨ k = .unicode := by
      intro k hk
      unfold textKind at hk
      split at hk
      · cases hk
      · split at hk
        · cases hk
        · split at hk
          · exact .inr (Option.some.inj hk).symm
          · exact .inl (Option.some.inj hk).symm
    refine ⟨fun a => ?_, fun a b => ?_, fun a b => ?_, fun a => ?_, fun a b => ?_⟩
    · rw [if_pos a] at h2
      exact (Option.some.inj h2).symm
    · rw [if_neg (by omega), if_pos b] at h2
      exact (Option.some.inj h2).symm
    · rw [if_neg (by omega), if_neg (by omega), if_pos b] at h2
      exact (Option.some.inj h2).symm
    · simp only [List.mem_cons, List.not_mem_nil, or_false] at a
      rw [if_neg (by omega), if_neg (by omega), if_neg (by omega), if_pos (by omega)] at h2
      exact ht _ h2
    · simp only [List.mem_cons, List.not_mem_nil, or_false, not_or] at b
      rw [if_neg (by omega), if_neg (by omega), if_neg (by omega), if_neg (by omega), if_neg (by omega)] at h2
      exact (Option.some.inj h2).symm

example [FloatEnv] : ∃ p e, parseFile Demo.file = .ok p ∧ e ∈ p.events ∧
    ∃ d ∈ loaded, d.id = e.id ∧ d.type = "ColorEvent" := by
  obtain ⟨q, h, _, _, _, ho, _⟩ := C04_save_parse Demo.project Demo.file (by decide) (by decide) Demo.wellTyped Demo.valid Demo.saved
  have : 128 ∈ q.events.map Event.id := by
    have h' := congrArg (List.map fun x => x.1) ho
    rw [List.map_map, List.map_map] at h'
    have e1 : ((fun x => x.1) ∘ observe) = Event.id := rfl
    rw [e1] at h'
    rw [h']
    decide +kernel
  obtain ⟨e, he, hid⟩ := List.mem_map.1 this
  exact ⟨q, e, h, he, ⟨"PluginID", "Color", 128, "ColorEvent"⟩, by decide +kernel, hid.symm, rfl⟩

/-- C105 is false of the events of controllers: nothing that `import pyflp` loads declares them, so that in every parsed
file they are raw bytes instead of `MIDIControllerEvent`s and `RemoteControllerEvent`s. -/
theorem C105_controllers_refuted [FloatEnv] :
    (∀ d ∈ events, d.cls = "ControllerID" → ∀ file p, parseFile file = .ok p → ∀ e ∈ p.events, e.id = d.id →
      e.kind = .unknown ∧ eventClass d.type ≠ some e.kind) ∧
    ∃ file p e, parseFile file = .ok p ∧ e ∈ p.events ∧ ∃ d ∈ events, d.id = e.id ∧ d.type = "RemoteControllerEvent" := by
  constructor
  · intro d hd hc file p h e he hid
    have hk : (d.id = 226 ∨ d.id = 227) ∧ eventClass d.type ≠ some .unknown := by
      have : ∀ d ∈ events, d.cls = "ControllerID" → (d.id = 226 ∨ d.id = 227) ∧ eventClass d.type ≠ some .unknown := by
        decide +kernel
      exact this d hd hc
    have hl : ∀ x ∈ loaded, x.id ≠ 226 ∧ x.id ≠ 227 := by decide +kernel
    have := ((C105_class_partial h he).2 (fun x hx hxid => by
      obtain ⟨a, b⟩ := hl x hx
      exfalso
      rcases hk.1 with c | c <;> omega)).2.2.2.2 (by omega) (by
        simp only [List.mem_cons, List.not_mem_nil, or_false]
        omega)
    exact ⟨this, by rw [this]; exact hk.2⟩
  · let q : Project := ⟨0, 1, 96, [⟨64, .u16, .lv (.int 0), 2⟩, ⟨227, .unknown, .bytes [7], 1⟩]⟩
    have hs : ∃ file, saveBytes q = .ok file := by
      rw [C03_save_succeeds]
      refine ⟨[frame (64, [0, 0]), frame (227, [7])], ?_, by decide, by decide, by decide, by
        simp [frame, Demo.varBuild_small]⟩
      simp only [q, List.map_cons, List.map_nil]
      rw [Demo.toBytes_frame (b := [0, 0]) (by decide) rfl, Demo.toBytes_frame (b := [7]) (by decide) rfl]
    obtain ⟨file, hf⟩ := hs
    obtain ⟨p, h, _, _, _, ho, _⟩ := C04_save_parse q file (by decide) (by decide) (Demo.wellTyped_of (by decide +kernel))
      (by
        intro e he
        simp only [q, List.mem_cons, List.not_mem_nil, or_false] at he
        rcases he with rfl | rfl
        · exact ⟨_, rfl, rfl⟩
        · trivial) hf
    have : 227 ∈ p.events.map Event.id := by
      have h' := congrArg (List.map fun x => x.1) ho
      rw [List.map_map, List.map_map] at h'
      have e1 : ((fun x => x.1) ∘ observe) = Event.id := rfl
      rw [e1] at h'
      rw [h']
      decide +kernel
    obtain ⟨e, he, hid⟩ := List.mem_map.1 this
    exact ⟨file, p, e, h, he, ⟨"ControllerID", "Remote", 227, "RemoteControllerEvent"⟩, by decide +kernel, hid.symm, rfl⟩

/-- The table of the boolean properties of `Insert` (C66) is the declared one, and the bits are those of `_InsertFlags`. -/
theorem C66_declared : insertFlags.map (fun f => (some f.1, f.2)) =
      (props.filter fun d => d.cls == "Insert" && d.descr == "FlagProp").map (fun d => (d.flag.bind flagValue, d.inverted)) ∧
    flagMask "_InsertFlags" = 0xFFFF ∧ flagValue ("_InsertFlags", "DockMiddle") = some 0x40 ∧
    flagValue ("_InsertFlags", "DockRight") = some 0x80 := by
  decide +kernel

end PyFLP
