import Verif.Props.Assigned
/-!
# Pan and volume (C78), pitch shift (C79), reverb (C80), delay (C81), trackings and envelopes (C82) of channels;
paths (C83)
-/

namespace PyFLP

open Spec Heap

/-! ## C78: pan and volume -/

namespace Spec

/-- The two knobs. -/
inductive Knob
  | pan | volume

/-- `channel.pan`, `channel.volume` -/
def Knob.read : Knob → World → Nat → Py (Option Value)
  | .pan, w, t => w.pan t
  | .volume, w, t => w.volume t

/-- `channel.pan = v`, `channel.volume = v` -/
def Knob.write : Knob → World → Nat → LV → World × Py Unit
  | .pan, w, t, v => w.setPan t v
  | .volume, w, t, v => w.setVolume t v

/-- Field of the levels event (219). -/
def Knob.field : Knob → String
  | .pan => "pan"
  | .volume => "volume"

/-- The events with two and with one byte that older versions of FL Studio have used. -/
def Knob.word : Knob → Nat
  | .pan => 73
  | .volume => 72
@[inherit_doc Knob.word]
def Knob.byte : Knob → Nat
  | .pan => 3
  | .volume => 2

/-- The position of the knob as the events have it: the field of the levels event; without such an event, the value of the
event of two bytes; without that, of one byte; else `None`. -/
def Knob.At (k : Knob) (evs : List Event) (v : Option Value) : Prop :=
  (∃ rec f, valueOf evs 219 = some (.fields rec) ∧ Rec.lookup rec k.field = some f ∧ v = f.map Value.lv) ∨
  (valueOf evs 219 = none ∧ v = (valueOf evs k.word).or (valueOf evs k.byte))

end Spec

theorem Knob.read_eq (k : Knob) (w : World) (t : Nat) : k.read w t = w.level t k.field k.word k.byte := by
  cases k <;> rfl

theorem Knob.write_eq (k : Knob) (w : World) (t : Nat) (v : LV) :
    k.write w t v = w.setLevel t k.field k.word k.byte v := by
  cases k <;> rfl

theorem level_eq {w : World} {L : Nat → Prop} (r : WReach w L) {t : Nat} (ht : L t) {k : Knob} {v : Option Value}
    (h : k.At (w.events t) v) : k.read w t = .ok v := by
  rw [Knob.read_eq]
  unfold World.level
  rw [World.contains_eq r ht, World.contains_eq r ht, World.contains_eq r ht]
  rcases h with ⟨rec, f, h1, h2, rfl⟩ | ⟨h1, rfl⟩
  · rw [h1, if_pos Option.isSome_some]
    exact firstGet_eq r ht h1 h2
  · rw [h1, if_neg (by simp)]
    cases hw : valueOf (w.events t) k.word with
    | some x =>
      rw [if_pos Option.isSome_some, World.firstVal_eq r ht hw]
      rfl
    | none =>
      rw [if_neg (by simp)]
      cases hb : valueOf (w.events t) k.byte with
      | some x =>
        rw [if_pos Option.isSome_some, World.firstVal_eq r ht hb]
        rfl
      | none => rfl

/-- The field of a typed event. -/
theorem typed_field {fs : Fields} {rec : Rec} (h : FieldsTyped fs rec) {key : String} (hk : key ∈ fs.map Prod.fst) :
    ∃ f, Rec.lookup rec key = some f := by
  rw [← h.names] at hk
  exact lookup_of_names hk

theorem levels_kind : enumType enums 219 = some (.struct .levels) := by decide +kernel

/-- C78, reading: whatever the events, pan and volume are what the events have. -/
theorem C78_get {w : World} {L : Nat → Prop} (r : WReach w L) {t : Nat} (ht : L t) (hty : Typed (w.events t)) (k : Knob) :
    ∃ v, k.read w t = .ok v ∧ k.At (w.events t) v := by
  suffices h : ∃ v, k.At (w.events t) v by
    obtain ⟨v, h⟩ := h
    exact ⟨v, level_eq r ht h, h⟩
  cases h : valueOf (w.events t) 219 with
  | none => exact ⟨_, .inr ⟨h, rfl⟩⟩
  | some v =>
    obtain ⟨rec, rfl, h2⟩ := typed_value hty levels_kind h
    obtain ⟨f, hf⟩ := typed_field h2 (key := k.field) (by cases k <;> decide)
    exact ⟨_, .inl ⟨rec, f, h, hf, rfl⟩⟩

theorem setAll_two {w : World} {L : Nat → Prop} (r : WReach w L) {t : Nat} (ht : L t) {a b : Nat} (hab : a ≠ b) (v : LV)
    (hty : Typed w.project.events) {ka kb : Kind} (hka : enumType enums a = some ka) (hkb : enumType enums b = some kb)
    (hva : ValueTyped ka (.lv v)) (hvb : ValueTyped kb (.lv v)) :
    ∃ w', w.setAll t v [a, b] = (w', .ok ()) ∧ WReach w' L ∧ ChangedOnly w w' t [a, b] ∧ Typed w'.project.events ∧
      (∀ id, id ≠ a → id ≠ b → valueOf (w'.events t) id = valueOf (w.events t) id) ∧
      valueOf (w'.events t) a = (valueOf (w.events t) a).map (fun _ => .lv v) ∧
      valueOf (w'.events t) b = (valueOf (w.events t) b).map (fun _ => .lv v) := by
  have step : ∀ (w : World), WReach w L → Typed w.project.events → ∀ (id : Nat) (k : Kind), enumType enums id = some k →
      ValueTyped k (.lv v) → id ∈ [a, b] → ∀ ids, ∃ w', w.setAll t v (id :: ids) = w'.setAll t v ids ∧ WReach w' L ∧
        ChangedOnly w w' t [a, b] ∧ Typed w'.project.events ∧
        (∀ x, x ≠ id → valueOf (w'.events t) x = valueOf (w.events t) x) ∧
        valueOf (w'.events t) id = (valueOf (w.events t) id).map (fun _ => .lv v) := by
    intro w r hty id k hk hv hid ids
    unfold World.setAll
    rw [World.contains_eq r ht]
    cases h : valueOf (w.events t) id with
    | none =>
      rw [if_neg (by simp)]
      refine ⟨w, ?_, r, .refl w _ _, hty, fun _ _ => rfl, h⟩
      cases ids <;> rfl
    | some x =>
      rw [if_pos Option.isSome_some]
      obtain ⟨w', s1, s2⟩ := setFirstVal_spec r ht (id := id) (by rw [h]; rfl) (.lv v)
      rw [s1]
      refine ⟨w', by cases ids <;> rfl, s2.reach, s2.changedOnly hid, assigned_typed s2 hty hk hv, fun x hx => ?_, ?_⟩
      · rw [s2.model, valueOf_setFirst_other hx]
      · rw [s2.model, valueOf_setFirst_self (by rw [h]; rfl)]
        rfl
  obtain ⟨w1, a1, a2, a3, a4, a5, a6⟩ := step w r hty a ka hka hva (by simp) [b]
  obtain ⟨w2, b1, b2, b3, b4, b5, b6⟩ := step w1 a2 a4 b kb hkb hvb (by simp) []
  refine ⟨w2, by rw [a1, b1]; rfl, b2, a3.trans b3, b4, fun id h1 h2 => ?_, ?_, ?_⟩
  · rw [b5 id h2, a5 id h1]
  · rw [b5 a hab, a6]
  · rw [b6, a5 b hab.symm]

theorem levels_update {rec : Rec} (h : FieldsTyped (SName.fields .levels) rec) {k : Knob} {f : Option LV}
    (hl : Rec.lookup rec k.field = some f) {n : Int} (hn : 0 ≤ n) :
    ValueTyped (.struct .levels) (.fields (Rec.update rec k.field (some (.int n)))) := by
  refine ⟨_, rfl, fieldsTyped_update h hl fun f hf => ?_⟩
  have hall : ∀ (k : Knob) (f : Fld), (k.field, f) ∈ SName.fields .levels → f = .opt i32 ∨ f = .opt u32 := by
    intro k f hf
    cases k <;> simp [Knob.field, SName.fields] at hf <;> simp [hf]
  rcases hall k f hf with rfl | rfl
  · trivial
  · exact hn

/-- C78, assigning: if the knob has a position, it gets the assigned one; only levels and the two older events change.  If
it has none, `PropertyCannotBeSet` is raised and nothing changes. -/
theorem C78_set {w : World} {L : Nat → Prop} (r : WReach w L) {t : Nat} (ht : L t) (hty : Typed w.project.events)
    (k : Knob) (n : Int) (hn : 0 ≤ n) :
    (∀ old, k.read w t = .ok (some old) → ∃ w', k.write w t (.int n) = (w', .ok ()) ∧
      k.read w' t = .ok (some (.lv (.int n))) ∧ WReach w' L ∧ Typed w'.project.events ∧
      ChangedOnly w w' t [219, k.word, k.byte]) ∧
    (k.read w t = .ok none → k.write w t (.int n) = (w, .error .propertyCannotBeSet)) := by
  obtain ⟨v, v1, v2⟩ := C78_get r ht (typed_view r ht hty) k
  rw [Knob.write_eq]
  unfold World.setLevel
  rw [← Knob.read_eq, v1]
  cases v with
  | none => exact ⟨fun old h => (nomatch h), fun _ => rfl⟩
  | some old =>
    refine ⟨fun _ _ => ?_, fun h => nomatch h⟩
    dsimp only
    rw [World.contains_eq r ht]
    rcases v2 with ⟨rec, f, h1, h2, h3⟩ | ⟨h1, h2⟩
    · cases f with
      | none => cases h3
      | some x =>
        rw [h1, if_pos Option.isSome_some]
        obtain ⟨w', s1, s2⟩ := firstSet_spec r ht h1 h2 (.int n)
        obtain ⟨rec', e1, e2⟩ := typed_value (typed_view r ht hty) levels_kind h1
        cases e1
        refine ⟨w', s1, level_eq s2.reach ht (.inl ⟨_, some (.int n), ?_, (lookup_update h2 _).1, rfl⟩), s2.reach,
          assigned_typed s2 hty levels_kind (levels_update e2 h2 hn), s2.changedOnly (by simp)⟩
        rw [s2.model, valueOf_setFirst_self (by rw [h1]; rfl)]
    · rw [h1, if_neg (by simp)]
      have hk : k.word ≠ k.byte ∧ k.word ≠ 219 ∧ k.byte ≠ 219 ∧ enumType enums k.word = some .u16 ∧
          enumType enums k.byte = some .u8 := by cases k <;> decide +kernel
      have hval : ∀ kk : Kind, (kk = .u16 ∨ kk = .u8) → ValueTyped kk (.lv (.int n)) := by
        intro kk hkk
        rcases hkk with rfl | rfl <;> (intro l hl; cases hl; exact ⟨_, rfl, hn⟩)
      obtain ⟨w', s1, s2, s3, s4, s5, s6, s7⟩ := setAll_two r ht hk.1 (.int n) hty hk.2.2.2.1 hk.2.2.2.2
        (hval _ (.inl rfl)) (hval _ (.inr rfl))
      refine ⟨w', s1, level_eq s2 ht (.inr ⟨?_, ?_⟩), s2, s4, s3.mono fun i hi => List.mem_cons_of_mem _ hi⟩
      · rw [s5 219 hk.2.1.symm hk.2.2.1.symm, h1]
      · rw [s6, s7]
        cases hw : valueOf (w.events t) k.word with
        | some x => rfl
        | none =>
          cases hb : valueOf (w.events t) k.byte with
          | some x => rfl
          | none => rw [hw, hb] at h2; cases h2

section
variable [FloatEnv]

theorem At_observe {k : Knob} {evs evs' : List Event} (h : evs'.map observe = evs.map observe) {v : Option Value}
    (hv : k.At evs v) : k.At evs' v := by
  unfold Knob.At at *
  simp only [valueOf_observe h]
  exact hv

theorem valid_fields {e : Event} {s : SName} (hk : e.kind = .struct s) {r : Rec} (hv : e.value = .fields r)
    (h : validValue e.kind e.len e.value) : validFields ⟨e.len⟩ s.fields r := by
  rw [hk, hv] at h
  exact h

theorem level_storable {w w' : World} {L : Nat → Prop} (r : WReach w L) {t : Nat} (ht : L t) (hst : Storable w)
    (k : Knob) (hold : (valueOf (w.events t) 219).isSome ∨ valueOf (w.events t) k.byte = none)
    (n : Int) (h0 : 0 ≤ n) (h1 : n ≤ 12800) (hw : k.write w t (.int n) = (w', .ok ())) :
    WReach w' L ∧ Storable w' ∧ ChangedOnly w w' t [219, k.word, k.byte] ∧ k.At (w'.events t) (some (.lv (.int n))) := by
  have hty := storable_typed hst
  obtain ⟨v, v1, v2⟩ := C78_get r ht (typed_view r ht hty) k
  cases v with
  | none =>
    rw [(C78_set r ht hty k n h0).2 v1] at hw
    cases hw
  | some old =>
    obtain ⟨w1, a1, a2, a3, a4, a5⟩ := (C78_set r ht hty k n h0).1 old v1
    rw [hw] at a1
    injection a1 with a1 _
    subst a1
    obtain ⟨v', b1, b2⟩ := C78_get a3 ht (typed_view a3 ht a4) k
    rw [a2] at b1
    injection b1 with b1
    subst b1
    refine ⟨a3, ?_, a5, b2⟩
    rw [Knob.write_eq] at hw
    unfold World.setLevel at hw
    rw [← Knob.read_eq, v1] at hw
    dsimp only at hw
    rw [World.contains_eq r ht] at hw
    rcases v2 with ⟨rec, f, c1, c2, c3⟩ | ⟨c1, c2⟩
    · cases f with
      | none => cases c3
      | some x =>
        rw [c1, if_pos Option.isSome_some] at hw
        obtain ⟨w1, s1, s2⟩ := firstSet_spec r ht c1 c2 (.int n)
        rw [s1] at hw
        injection hw with hw _
        subst hw
        refine assigned_storable s2 hst (by decide) (by decide) fun e he hid hval => ?_
        have hk := storable_kind hst he (hid ▸ levels_kind)
        rw [c1] at hval
        have hv := valid_fields hk (Option.some.inj hval).symm (hst.valid e he)
        rw [hk]
        refine validFields_update hv c2 fun f hf => ?_
        cases k <;> simp [Knob.field, SName.fields] at hf <;> subst hf <;>
          simp [Fld.leaf, PyFLP.u32, PyFLP.i32, leafValid, intFits] <;> omega
    · rw [c1] at hold
      have hb : valueOf (w.events t) k.byte = none := by
        rcases hold with h | h
        · cases h
        · exact h
      rw [c1, if_neg (by simp)] at hw
      rw [hb] at c2
      have hword : (valueOf (w.events t) k.word).isSome := by
        cases hwd : valueOf (w.events t) k.word with
        | none => rw [hwd] at c2; cases c2
        | some => rfl
      have hk : k.word ≠ 199 ∧ k.word ≠ 201 ∧ k.byte ≠ k.word ∧ enumType enums k.word = some .u16 := by
        cases k <;> decide +kernel
      obtain ⟨w1, s1, s2⟩ := setFirstVal_spec r ht hword (.lv (.int n))
      unfold World.setAll at hw
      rw [World.contains_eq r ht, if_pos hword, s1] at hw
      dsimp only at hw
      unfold World.setAll at hw
      rw [World.contains_eq s2.reach ht, s2.model, valueOf_setFirst_other hk.2.2.1, hb, if_neg (by simp)] at hw
      injection hw with hw _
      subst hw
      refine assigned_storable s2 hst hk.1 hk.2.1 fun e he hid _ => ?_
      rw [storable_kind hst he (hid ▸ hk.2.2.2)]
      exact ⟨_, rfl, by simp [leafValid, intFits]; omega⟩

/-- C78, saving: a position in the documented range is saved, unless the channel has the old event of one byte. -/
theorem C78_saved_partial {w w' : World} {L : Nat → Prop} (r : WReach w L) {t : Nat} (ht : L t) (hst : Storable w)
    (k : Knob) (hold : (valueOf (w.events t) 219).isSome ∨ valueOf (w.events t) k.byte = none)
    (n : Int) (h0 : 0 ≤ n) (h1 : n ≤ 12800) (hw : k.write w t (.int n) = (w', .ok ())) {file : Bytes}
    (hs : saveBytes w'.project = .ok file) :
    ReadBack w' file ∧ ∀ w₂ L₂ u, WReach w₂ L₂ → L₂ u → (w₂.events u).map observe = (w'.events t).map observe →
      k.read w₂ u = .ok (some (.lv (.int n))) := by
  obtain ⟨-, h2, -, b2⟩ := level_storable r ht hst k hold n h0 h1 hw
  exact ⟨storable_saved h2 hs, fun w₂ L₂ u r₂ hu hobs => level_eq r₂ hu (At_observe hobs b2)⟩

namespace Demo

/-- A channel with pan in a levels event. -/
def panned : Project := ⟨0, 1, 96, [⟨199, .ascii, .str (PStr.lit "20.8.3"), 7⟩, ⟨64, .u16, .lv (.int 0), 2⟩,
  ⟨219, .struct .levels, .fields [("pan", some (.int 6400)), ("volume", some (.int 10000)), ("pitch_shift", some (.int 0)),
    ("filter.mod_x", none), ("filter.mod_y", none), ("filter.type", none)], 12⟩]⟩

/-- A channel of an old file: its pan is in an event of two bytes and in an event of one byte. -/
def oldPan (a b : Int) : Project := ⟨0, 1, 96, [⟨199, .ascii, .str (PStr.lit "3.0.0"), 6⟩, ⟨64, .u16, .lv (.int 0), 2⟩,
  ⟨73, .u16, .lv (.int a), 2⟩, ⟨3, .u8, .lv (.int b), 1⟩]⟩

theorem panned_storable : Storable (World.ofProject panned) := by
  refine ⟨by decide, by decide, by rw [ofProject_project]; exact Demo.wellTyped_of (by decide +kernel), ?_⟩
  rw [ofProject_project]
  intro e he
  simp only [panned, List.mem_cons, List.not_mem_nil, or_false] at he
  rcases he with rfl | rfl | rfl
  · exact ⟨by decide, by decide⟩
  · exact ⟨_, rfl, rfl⟩
  · exact ⟨rfl, rfl, by simp [PyFLP.i32], rfl, rfl, by simp [PyFLP.u32], rfl, rfl, by simp [PyFLP.i32], rfl, rfl, rfl, rfl, rfl,
      rfl, trivial⟩

theorem oldPan_storable : Storable (World.ofProject (oldPan 6400 64)) := by
  refine ⟨by decide, by decide, by rw [ofProject_project]; exact Demo.wellTyped_of (by decide +kernel), ?_⟩
  rw [ofProject_project]
  intro e he
  simp only [oldPan, List.mem_cons, List.not_mem_nil, or_false] at he
  rcases he with rfl | rfl | rfl | rfl
  · exact ⟨by decide, by decide⟩
  all_goals exact ⟨_, rfl, rfl⟩

end Demo

/-- C78 is false of files with both old events: after `channel.pan = 12800` the project cannot be saved. -/
theorem C78_saved_refuted : ∃ w w' : World, WReach w (· = 0) ∧ Storable w ∧
    w.pan 0 = .ok (some (.lv (.int 6400))) ∧ w.setPan 0 (.int 12800) = (w', .ok ()) ∧
    w'.pan 0 = .ok (some (.lv (.int 12800))) ∧ ∃ err, saveBytes w'.project = .error err := by
  refine ⟨_, .ofProject (Demo.oldPan 12800 12800), .parsed _, Demo.oldPan_storable, rfl, rfl, rfl, ?_⟩
  rw [ofProject_project]
  exact ⟨_, rfl⟩

/-- The hypotheses of the C78 theorems can be met. -/
example : Storable (World.ofProject Demo.panned) ∧ (World.ofProject Demo.panned).pan 0 = .ok (some (.lv (.int 6400))) ∧
    (valueOf ((World.ofProject Demo.panned).events 0) 219).isSome ∧
    ∃ w', Knob.pan.write (World.ofProject Demo.panned) 0 (.int 12800) = (w', .ok ()) :=
  ⟨Demo.panned_storable, rfl, rfl, _, rfl⟩

end

/-! ## C79: pitch shift, zipped -/

namespace Spec

/-- The pitch shift as the events have it. -/
def PitchAt (evs : List Event) (v : Option Value) : Prop :=
  (∃ rec f, valueOf evs 219 = some (.fields rec) ∧ Rec.lookup rec "pitch_shift" = some f ∧ v = f.map Value.lv) ∨
  (valueOf evs 219 = none ∧ v = none)

end Spec

theorem pitch_eq {w : World} {L : Nat → Prop} (r : WReach w L) {t : Nat} (ht : L t) {v : Option Value}
    (h : PitchAt (w.events t) v) : w.pitchShift t = .ok v := by
  unfold World.pitchShift
  rw [World.contains_eq r ht]
  rcases h with ⟨rec, f, h1, h2, rfl⟩ | ⟨h1, rfl⟩
  · rw [h1, if_pos Option.isSome_some]
    exact firstGet_eq r ht h1 h2
  · rw [h1, if_neg (by simp)]

/-- C79, reading. -/
theorem C79_get {w : World} {L : Nat → Prop} (r : WReach w L) {t : Nat} (ht : L t) (hty : Typed (w.events t)) :
    (∃ v, w.pitchShift t = .ok v ∧ PitchAt (w.events t) v) ∧
    w.zipped t = .ok ((valueOf (w.events t) 15).getD (.lv (.bool false))) := by
  constructor
  · suffices h : ∃ v, PitchAt (w.events t) v by
      obtain ⟨v, h⟩ := h
      exact ⟨v, pitch_eq r ht h, h⟩
    cases h : valueOf (w.events t) 219 with
    | none => exact ⟨_, .inr ⟨h, rfl⟩⟩
    | some v =>
      obtain ⟨rec, rfl, h2⟩ := typed_value hty levels_kind h
      obtain ⟨f, hf⟩ := typed_field h2 (key := "pitch_shift") (by decide)
      exact ⟨_, .inl ⟨rec, f, h, hf, rfl⟩⟩
  · unfold World.zipped
    rw [World.contains_eq r ht]
    cases h : valueOf (w.events t) 15 with
    | none => rfl
    | some v =>
      rw [if_pos Option.isSome_some, World.firstVal_eq r ht h]
      rfl

/-- C79, assigning and saving. -/
theorem C79_set [FloatEnv] {w : World} {L : Nat → Prop} (r : WReach w L) {t : Nat} (ht : L t) (hty : Typed w.project.events)
    (n : Int) :
    (∀ old, w.pitchShift t = .ok (some old) → ∃ w', w.setPitchShift t (.int n) = (w', .ok ()) ∧
      w'.pitchShift t = .ok (some (.lv (.int n))) ∧ WReach w' L ∧ Typed w'.project.events ∧ ChangedOnly w w' t [219] ∧
      (Storable w → -2 ^ 31 ≤ n → n < 2 ^ 31 → Storable w')) ∧
    (w.pitchShift t = .ok none → w.setPitchShift t (.int n) = (w, .error .propertyCannotBeSet)) := by
  obtain ⟨v, v1, v2⟩ := (C79_get r ht (typed_view r ht hty)).1
  rw [v1]
  unfold World.setPitchShift
  rcases v2 with ⟨rec, f, h1, h2, rfl⟩ | ⟨h1, rfl⟩
  · have hfirst : ∃ ref, w.heap.first t 219 = .ok ref := by
      rcases World.first_value r ht 219 with ⟨ref, f1, _⟩ | ⟨_, f2⟩
      · exact ⟨ref, f1⟩
      · rw [h1] at f2; cases f2
    obtain ⟨ref, hfirst⟩ := hfirst
    rw [hfirst]
    dsimp only
    cases f with
    | none => exact ⟨fun old h => (nomatch h), fun _ => firstSet_none r ht h1 h2 _⟩
    | some x =>
      refine ⟨fun _ _ => ?_, fun h => nomatch h⟩
      obtain ⟨w', s1, s2⟩ := firstSet_spec r ht h1 h2 (.int n)
      obtain ⟨rec', e1, e2⟩ := typed_value (typed_view r ht hty) levels_kind h1
      cases e1
      refine ⟨w', s1, pitch_eq s2.reach ht (.inl ⟨_, some (.int n), ?_, (lookup_update h2 _).1, rfl⟩), s2.reach,
        assigned_typed s2 hty levels_kind ⟨_, rfl, fieldsTyped_update e2 h2 fun f hf => ?_⟩, s2.changedOnly (by simp),
        fun hst l1 l2 => ?_⟩
      · rw [s2.model, valueOf_setFirst_self (by rw [h1]; rfl)]
      · simp [SName.fields] at hf
        subst hf
        trivial
      · refine assigned_storable s2 hst (by decide) (by decide) fun e he hid hval => ?_
        have hk := storable_kind hst he (hid ▸ levels_kind)
        rw [h1] at hval
        have hv := valid_fields hk (Option.some.inj hval).symm (hst.valid e he)
        rw [hk]
        refine validFields_update hv h2 fun f hf => ?_
        simp [SName.fields] at hf
        subst hf
        simp [Fld.leaf, PyFLP.i32, leafValid, intFits]
        omega
  · refine ⟨fun old h => (nomatch h), fun _ => ?_⟩
    rcases World.first_value r ht 219 with ⟨ref, _, _, f2, _⟩ | ⟨f1, _⟩
    · rw [h1] at f2; cases f2
    · rw [f1]

/-- The hypotheses of the C79 theorems can be met. -/
example [FloatEnv] : Storable (World.ofProject Demo.panned) ∧
    (World.ofProject Demo.panned).pitchShift 0 = .ok (some (.lv (.int 0))) ∧
    (World.ofProject (Demo.oldPan 0 0)).pitchShift 0 = .ok none ∧
    (World.ofProject Demo.panned).zipped 0 = .ok (.lv (.bool false)) := ⟨Demo.panned_storable, rfl, rfl, rfl⟩

/-! ## C80: reverb -/

theorem reverb_kind : enumType enums 139 = some .u32 := by decide +kernel

theorem reverb_cases {evs : List Event} (hty : Typed evs) :
    valueOf evs 139 = none ∨ ∃ n : Nat, valueOf evs 139 = some (.lv (.int n)) := by
  cases h : valueOf evs 139 with
  | none => exact .inl rfl
  | some v =>
    right
    obtain ⟨x, rfl, hx⟩ := typed_value hty reverb_kind h _ rfl
    cases x with
    | int n =>
      have hn : 0 ≤ n := hx
      exact ⟨n.toNat, by rw [Int.toNat_of_nonneg hn]⟩
    | _ => cases hx

/-- What the number in the reverb event stands for: type B begins at 65536. -/
def Spec.reverbOf (n : Nat) : ReverbType × Int := if 65536 ≤ n then (.B, n - 65536) else (.A, n)

theorem reverb_eq {w : World} {L : Nat → Prop} (r : WReach w L) {t : Nat} (ht : L t) {n : Nat}
    (h : valueOf (w.events t) 139 = some (.lv (.int n))) :
    w.reverbVal t = .ok n ∧ w.reverbType t = .ok (some (reverbOf n).1) ∧ w.reverbMix t = .ok (some (reverbOf n).2) := by
  have h1 : w.reverbVal t = .ok n := by
    unfold World.reverbVal
    rw [World.firstVal_eq r ht h]
  have h2 : w.reverbType t = .ok (some (reverbOf n).1) := by
    unfold World.reverbType
    rw [World.contains_eq r ht, h, if_pos Option.isSome_some, h1]
    simp only [Except.map, reverbOf]
    by_cases hn : 65536 ≤ n
    · rw [if_pos hn, if_pos (by show (65536 : Int) ≤ n; omega)]
    · rw [if_neg hn, if_neg (by show ¬ (65536 : Int) ≤ n; omega)]
  refine ⟨h1, h2, ?_⟩
  unfold World.reverbMix
  rw [World.contains_eq r ht, h, if_pos Option.isSome_some, h1, h2]
  simp only [reverbOf]
  split
  · rfl
  · simp [ReverbType.value]

/-- C80, reading: both are `None` without the event. -/
theorem C80_get {w : World} {L : Nat → Prop} (r : WReach w L) {t : Nat} (ht : L t) (hty : Typed (w.events t)) :
    (valueOf (w.events t) 139 = none ∧ w.reverbType t = .ok none ∧ w.reverbMix t = .ok none) ∨
    ∃ n : Nat, valueOf (w.events t) 139 = some (.lv (.int n)) ∧ w.reverbType t = .ok (some (reverbOf n).1) ∧
      w.reverbMix t = .ok (some (reverbOf n).2) := by
  rcases reverb_cases hty with h | ⟨n, h⟩
  · left
    refine ⟨h, ?_, ?_⟩
    · unfold World.reverbType
      rw [World.contains_eq r ht, h, if_neg (by simp)]
    · unfold World.reverbMix
      rw [World.contains_eq r ht, h, if_neg (by simp)]
  · exact .inr ⟨n, h, (reverb_eq r ht h).2⟩

/-- C80, the type: it gets the assigned value and the mix stays, if the mix is below 65536 (documented: at most 256). -/
theorem C80_type_partial [FloatEnv] {w : World} {L : Nat → Prop} (r : WReach w L) {t : Nat} (ht : L t)
    (hty : Typed w.project.events) (ty : ReverbType) :
    (∀ m, w.reverbMix t = .ok (some m) → m < 65536 → ∃ w', w.setReverbType t ty = (w', .ok ()) ∧
      w'.reverbType t = .ok (some ty) ∧ w'.reverbMix t = .ok (some m) ∧ WReach w' L ∧ ChangedOnly w w' t [139] ∧
      Typed w'.project.events ∧ (Storable w → Storable w')) ∧
    (w.reverbMix t = .ok none → w.setReverbType t ty = (w, .error .propertyCannotBeSet)) := by
  constructor
  · intro m hm hlt
    rcases C80_get r ht (typed_view r ht hty) with ⟨_, _, h⟩ | ⟨n, h1, _, h2⟩
    · rw [hm] at h; cases h
    · have hmn : m = (reverbOf n).2 := by rw [hm] at h2; injection h2 with h2; exact Option.some.inj h2
      have hm0 : 0 ≤ m := by rw [hmn]; unfold reverbOf; split <;> simp <;> omega
      unfold World.setReverbType
      rw [hm]
      obtain ⟨w', s1, s2⟩ := setFirstVal_spec r ht (id := 139) (by rw [h1]; rfl) (.lv (.int (ty.value + m)))
      obtain ⟨p, hp⟩ : ∃ p : Nat, ty.value + m = p := ⟨(ty.value + m).toNat, by
        rw [Int.toNat_of_nonneg]; cases ty <;> simp [ReverbType.value] <;> omega⟩
      have hval : valueOf (w'.events t) 139 = some (.lv (.int p)) := by
        rw [s2.model, valueOf_setFirst_self (by rw [h1]; rfl), hp]
      obtain ⟨-, e2, e3⟩ := reverb_eq s2.reach ht hval
      have hro : reverbOf p = (ty, m) := by
        unfold reverbOf
        cases ty <;> simp only [ReverbType.value] at hp
        · rw [if_neg (by omega), ← hp]; simp
        · rw [if_pos (by omega), ← hp]
          simp
          omega
      rw [hro] at e2 e3
      refine ⟨w', s1, e2, e3, s2.reach, s2.changedOnly (by simp), assigned_typed s2 hty reverb_kind ?_, fun hst => ?_⟩
      · intro l hl; cases hl; rw [hp]; exact ⟨_, rfl, by show (0 : Int) ≤ p; omega⟩
      · refine assigned_storable s2 hst (by decide) (by decide) fun e he hid _ => ?_
        rw [storable_kind hst he (hid ▸ reverb_kind)]
        refine ⟨_, rfl, ?_⟩
        have : ty.value + m < 131072 := by cases ty <;> simp [ReverbType.value] <;> omega
        simp [leafValid, intFits]
        omega
  · intro h
    unfold World.setReverbType
    rw [h]

/-- C80, the mix: the assigned value is added to the stored number, so that it is read back if the mix was 0. -/
theorem C80_mix_partial [FloatEnv] {w : World} {L : Nat → Prop} (r : WReach w L) {t : Nat} (ht : L t)
    (hty : Typed w.project.events) (m : Int) (h0 : 0 ≤ m) (h1 : m < 65536) :
    (w.reverbMix t = .ok (some 0) → ∃ w', w.setReverbMix t m = (w', .ok ()) ∧ w'.reverbMix t = .ok (some m) ∧
      w'.reverbType t = w.reverbType t ∧ WReach w' L ∧ ChangedOnly w w' t [139] ∧ Typed w'.project.events ∧
      (Storable w → Storable w')) ∧
    (w.reverbMix t = .ok none → w.setReverbMix t m = (w, .error .propertyCannotBeSet)) := by
  rcases C80_get r ht (typed_view r ht hty) with ⟨h, _, h'⟩ | ⟨n, g1, g3, g2⟩
  · rw [h']
    refine ⟨fun h => (nomatch h), fun _ => ?_⟩
    unfold World.setReverbMix
    rw [World.contains_eq r ht, h, if_neg (by simp)]
  · refine ⟨fun hm => ?_, fun hm => by rw [g2] at hm; cases hm⟩
    rw [g2] at hm
    have hmn : (reverbOf n).2 = 0 := by injection hm with hm; exact Option.some.inj hm
    have hn : n = 0 ∨ n = 65536 := by
      unfold reverbOf at hmn
      split at hmn <;> simp at hmn <;> omega
    unfold World.setReverbMix
    rw [World.contains_eq r ht, g1, if_pos Option.isSome_some, (reverb_eq r ht g1).1]
    obtain ⟨w', s1, s2⟩ := setFirstVal_spec r ht (id := 139) (by rw [g1]; rfl) (.lv (.int (n + m)))
    obtain ⟨p, hp⟩ : ∃ p : Nat, (n : Int) + m = p := ⟨((n : Int) + m).toNat, by rw [Int.toNat_of_nonneg]; omega⟩
    have hval : valueOf (w'.events t) 139 = some (.lv (.int p)) := by
      rw [s2.model, valueOf_setFirst_self (by rw [g1]; rfl), hp]
    obtain ⟨-, e2, e3⟩ := reverb_eq s2.reach ht hval
    have hro : reverbOf p = ((reverbOf n).1, m) := by
      unfold reverbOf
      rcases hn with rfl | rfl
      · rw [if_neg (by omega), if_neg (by omega), ← hp]; simp
      · rw [if_pos (by omega), if_pos (by omega), ← hp]; simp; omega
    rw [hro] at e2 e3
    refine ⟨w', s1, e3, by rw [e2, g3], s2.reach, s2.changedOnly (by simp), assigned_typed s2 hty reverb_kind ?_, fun hst => ?_⟩
    · intro l hl; cases hl; rw [hp]; exact ⟨_, rfl, by show (0 : Int) ≤ p; omega⟩
    · refine assigned_storable s2 hst (by decide) (by decide) fun e he hid _ => ?_
      rw [storable_kind hst he (hid ▸ reverb_kind)]
      refine ⟨_, rfl, ?_⟩
      simp [leafValid, intFits]
      omega

namespace Demo

/-- A channel with a reverb. -/
def reverb (n : Int) : Project := ⟨0, 1, 96, [⟨199, .ascii, .str (PStr.lit "20.8.3"), 7⟩, ⟨64, .u16, .lv (.int 0), 2⟩,
  ⟨139, .u32, .lv (.int n), 4⟩]⟩

theorem reverb_storable [FloatEnv] {n : Int} (h0 : 0 ≤ n) (h1 : n < 2 ^ 32) : Storable (World.ofProject (reverb n)) := by
  refine ⟨by simp [World.ofProject, reverb, formats], by simp [World.ofProject, reverb, ppqs], by rw [ofProject_project]; exact Demo.wellTyped_of (by
    rw [show typedFrom [] (reverb n).events = typedFrom [] (reverb 0).events from rfl]; decide +kernel), ?_⟩
  rw [ofProject_project]
  intro e he
  simp only [reverb, List.mem_cons, List.not_mem_nil, or_false] at he
  rcases he with rfl | rfl | rfl
  · exact ⟨by decide, by decide⟩
  · exact ⟨_, rfl, rfl⟩
  · exact ⟨_, rfl, by simp [leafValid, intFits]; omega⟩

end Demo

/-- C80 is false: after `reverb.mix = 20` the mix is 30, because it was 10 before. -/
theorem C80_mix_refuted [FloatEnv] : ∃ w w' : World, WReach w (· = 0) ∧ Storable w ∧ w.reverbMix 0 = .ok (some 10) ∧
    w.setReverbMix 0 20 = (w', .ok ()) ∧ w'.reverbMix 0 = .ok (some 30) :=
  ⟨.ofProject (Demo.reverb 10), _, .parsed _, Demo.reverb_storable (by decide) (by decide), rfl, rfl, rfl⟩

/-- C80 is false of the type too, if the stored number is outside of the documented range. -/
theorem C80_type_refuted [FloatEnv] : ∃ w w' : World, WReach w (· = 0) ∧ Storable w ∧
    w.setReverbType 0 .A = (w', .ok ()) ∧ w'.reverbType 0 = .ok (some .B) :=
  ⟨.ofProject (Demo.reverb 131072), _, .parsed _, Demo.reverb_storable (by decide) (by decide), rfl, rfl⟩

/-- The hypotheses of the partial C80 theorems can be met. -/
example [FloatEnv] : Storable (World.ofProject (Demo.reverb 65536)) ∧
    (World.ofProject (Demo.reverb 65536)).reverbMix 0 = .ok (some 0) ∧
    (World.ofProject (Demo.reverb 65536)).reverbType 0 = .ok (some .B) :=
  ⟨Demo.reverb_storable (by decide) (by decide), rfl, rfl⟩

/-! ## C81: delay -/

theorem delay_kind : enumType enums 138 = some .u16t := by decide +kernel

theorem delay_eq {w : World} {L : Nat → Prop} (r : WReach w L) {t : Nat} (ht : L t) {x y : Int}
    (h : valueOf (w.events t) 138 = some (.lv (.pair x y))) :
    w.delayXY t = .ok (x, y) ∧ w.delayX t = .ok x ∧ w.delayY t = .ok y := by
  have h1 : w.delayXY t = .ok (x, y) := by
    unfold World.delayXY
    rw [World.firstVal_eq r ht h]
  exact ⟨h1, by unfold World.delayX; rw [h1]; rfl, by unfold World.delayY; rw [h1]; rfl⟩

/-- C81: `mod_x` and `mod_y` are the two numbers of the event; assigning one of them leaves the other.  Without the event
all of this raises `KeyError` and nothing changes. -/
theorem C81_delay [FloatEnv] {w : World} {L : Nat → Prop} (r : WReach w L) {t : Nat} (ht : L t)
    (hty : Typed w.project.events) (n : Int) :
    (∃ x y, valueOf (w.events t) 138 = some (.lv (.pair x y)) ∧ w.delayX t = .ok x ∧ w.delayY t = .ok y ∧
      (∃ w', w.setDelayX t n = (w', .ok ()) ∧ w'.delayX t = .ok n ∧ w'.delayY t = .ok y ∧ WReach w' L ∧
        ChangedOnly w w' t [138] ∧ Typed w'.project.events ∧ (Storable w → 0 ≤ n → n < 65536 → Storable w')) ∧
      (∃ w', w.setDelayY t n = (w', .ok ()) ∧ w'.delayX t = .ok x ∧ w'.delayY t = .ok n ∧ WReach w' L ∧
        ChangedOnly w w' t [138] ∧ Typed w'.project.events ∧ (Storable w → 0 ≤ n → n < 65536 → Storable w'))) ∨
    (valueOf (w.events t) 138 = none ∧ w.delayX t = .error .keyError ∧ w.delayY t = .error .keyError ∧
      w.setDelayX t n = (w, .error .keyError) ∧ w.setDelayY t n = (w, .error .keyError)) := by
  cases h : valueOf (w.events t) 138 with
  | none =>
    right
    have h1 : w.delayXY t = .error .keyError := by
      unfold World.delayXY
      rw [World.firstVal_none r ht h]
    refine ⟨rfl, ?_, ?_, ?_, ?_⟩
    · unfold World.delayX; rw [h1]; rfl
    · unfold World.delayY; rw [h1]; rfl
    · unfold World.setDelayX; rw [h1]
    · unfold World.setDelayY; rw [h1]
  | some v =>
    left
    obtain ⟨x, y, rfl⟩ := typed_value (typed_view r ht hty) delay_kind h
    obtain ⟨h1, h2, h3⟩ := delay_eq r ht h
    have key : ∀ a b : Int, ∃ w', w.setFirstVal t 138 (.lv (.pair a b)) = (w', .ok ()) ∧ w'.delayX t = .ok a ∧
        w'.delayY t = .ok b ∧ WReach w' L ∧ ChangedOnly w w' t [138] ∧ Typed w'.project.events ∧
        (Storable w → (0 ≤ a ∧ a < 65536) ∧ (0 ≤ b ∧ b < 65536) → Storable w') := by
      intro a b
      obtain ⟨w', s1, s2⟩ := setFirstVal_spec r ht (id := 138) (by rw [h]; rfl) (.lv (.pair a b))
      have hval : valueOf (w'.events t) 138 = some (.lv (.pair a b)) := by
        rw [s2.model, valueOf_setFirst_self (by rw [h]; rfl)]
      obtain ⟨-, e2, e3⟩ := delay_eq s2.reach ht hval
      refine ⟨w', s1, e2, e3, s2.reach, s2.changedOnly (by simp), assigned_typed s2 hty delay_kind ⟨_, _, rfl⟩, fun hst hr => ?_⟩
      refine assigned_storable s2 hst (by decide) (by decide) fun e he hid _ => ?_
      rw [storable_kind hst he (hid ▸ delay_kind)]
      exact hr
    have hold : Storable w → (0 ≤ x ∧ x < 65536) ∧ (0 ≤ y ∧ y < 65536) := by
      intro hst
      obtain ⟨e, he, hid, hval⟩ := valueOf_mem h
      have hep : e ∈ w.project.events := by
        have he' : e ∈ w.events t := he
        rw [World.events_eq] at he'
        obtain ⟨z, hz, rfl⟩ := List.mem_map.1 he'
        show _ ∈ w.events 0
        rw [World.events_eq]
        exact List.mem_map.2 ⟨z, (wreach_sub r ht).1.mem hz, rfl⟩
      have := hst.valid e hep
      rw [storable_kind hst hep (hid ▸ delay_kind), hval] at this
      exact this
    refine ⟨x, y, rfl, h2, h3, ?_, ?_⟩
    · obtain ⟨w', k1, k2, k3, k4, k5, k6, k7⟩ := key n y
      refine ⟨w', ?_, k2, k3, k4, k5, k6, fun hst a b => k7 hst ⟨⟨a, b⟩, (hold hst).2⟩⟩
      unfold World.setDelayX; rw [h1]; exact k1
    · obtain ⟨w', k1, k2, k3, k4, k5, k6, k7⟩ := key x n
      refine ⟨w', ?_, k2, k3, k4, k5, k6, fun hst a b => k7 hst ⟨(hold hst).1, a, b⟩⟩
      unfold World.setDelayY; rw [h1]; exact k1

namespace Demo

/-- A channel with a delay. -/
def delayed : Project := ⟨0, 1, 96, [⟨199, .ascii, .str (PStr.lit "20.8.3"), 7⟩, ⟨64, .u16, .lv (.int 0), 2⟩,
  ⟨138, .u16t, .lv (.pair 128 256), 4⟩]⟩

theorem delayed_storable [FloatEnv] : Storable (World.ofProject delayed) := by
  refine ⟨by decide, by decide, by rw [ofProject_project]; exact Demo.wellTyped_of (by decide +kernel), ?_⟩
  rw [ofProject_project]
  intro e he
  simp only [delayed, List.mem_cons, List.not_mem_nil, or_false] at he
  rcases he with rfl | rfl | rfl
  · exact ⟨by decide, by decide⟩
  · exact ⟨_, rfl, rfl⟩
  · exact ⟨⟨by decide, by decide⟩, ⟨by decide, by decide⟩⟩

end Demo

/-- The hypotheses of `C81_delay` can be met, and both cases occur. -/
example [FloatEnv] : Storable (World.ofProject Demo.delayed) ∧ (World.ofProject Demo.delayed).delayX 0 = .ok 128 ∧
    Storable (World.ofProject Demo.panned) ∧ (World.ofProject Demo.panned).delayX 0 = .error .keyError :=
  ⟨Demo.delayed_storable, rfl, Demo.panned_storable, rfl⟩

/-! ## C82: trackings, envelopes and LFOs -/

/-- The result `res` of reading the models named `names` of the events with this id of the model `t`: `None` if it has no
such event; else the names are paired in order with models that have one such event each.  The project is as before. -/
def Spec.NamedModels (w : World) (L : Nat → Prop) (t id : Nat) (names : List String)
    (res : World × Option (List (String × Nat))) : Prop :=
  res.1.project = w.project ∧
    ((∀ e ∈ w.events t, e.id ≠ id) → res.2 = none ∧ res.1 = w) ∧
    ((∃ e ∈ w.events t, e.id = id) → ∃ us, res.2 = some (names.zip us) ∧
      WReach res.1 (fun u => L u ∨ u ∈ us) ∧
      us.map res.1.entries = ((w.entries t).filter (fun e => decide (e.2.id = id))).map (fun e => [e]))

theorem namedViews_spec {w : World} {L : Nat → Prop} (r : WReach w L) {t : Nat} (ht : L t) (id : Nat) (names : List String) :
    NamedModels w L t id names (w.namedViews t id names) := by
  have hc := mem_events r ht id
  by_cases h : ∃ e ∈ w.events t, e.id = id
  · have hcon : w.contains t id = true := (contains_iff _ _ _).2 (hc.2 h)
    have hne : shown w.heap 0 ≠ [] := by
      obtain ⟨e, he, -⟩ := h
      rw [World.events_eq] at he
      obtain ⟨z, hz, -⟩ := List.mem_map.1 he
      exact List.ne_nil_of_mem ((wreach_sub r ht).1.mem hz)
    obtain ⟨s1, s2, s3, -, -⟩ := sepViews_spec r ht hne id
    have hw' : w.namedViews t id names = ((w.sepViews t id).1, some (names.zip (w.sepViews t id).2)) := by
      unfold World.namedViews
      rw [if_pos hcon]
    refine ⟨by show (w.namedViews t id names).1.project = _; rw [hw']; exact s3, fun hn => ?_, fun _ => ⟨(w.sepViews t id).2, ?_⟩⟩
    · obtain ⟨e, he, hid⟩ := h
      exact absurd hid (hn e he)
    · show _ ∧ WReach (w.namedViews t id names).1 _ ∧ List.map (w.namedViews t id names).1.entries _ = _
      rw [hw']
      exact ⟨rfl, s1, s2⟩
  · have hcon : ¬ w.contains t id = true := fun hh => h (hc.1 ((contains_iff _ _ _).1 hh))
    have hw' : w.namedViews t id names = (w, none) := by
      unfold World.namedViews
      rw [if_neg hcon]
    refine ⟨by show (w.namedViews t id names).1.project = _; rw [hw'], fun hn => ?_, fun hh => absurd hh h⟩
    exact ⟨by rw [hw'], by show (w.namedViews t id names).1 = _; rw [hw']⟩

/-- C82: the trackings of a channel. -/
theorem C82_tracking {w : World} {L : Nat → Prop} (r : WReach w L) {t : Nat} (ht : L t) :
    NamedModels w L t 228 ["volume", "keyboard"] (w.tracking t) := namedViews_spec r ht _ _

/-- C82: the envelopes (and the LFOs) of a sampler. -/
theorem C82_envelopes {w : World} {L : Nat → Prop} (r : WReach w L) {t : Nat} (ht : L t) :
    NamedModels w L t 218 ["Panning", "Volume", "Mod X", "Mod Y", "Pitch"] (w.envelopes t) := namedViews_spec r ht _ _

/-- Two trackings and a third that has no name. -/
def Demo.tracked : Project := ⟨0, 1, 96, [⟨64, .u16, .lv (.int 0), 2⟩, ⟨228, .unknown, .bytes [1], 1⟩,
  ⟨228, .unknown, .bytes [2], 1⟩, ⟨228, .unknown, .bytes [3], 1⟩]⟩

/-- Reading trackings: both names have their models; a channel without them. -/
example : ((World.ofProject Demo.tracked).tracking 0).2 = some [("volume", 1), ("keyboard", 2)] ∧
    (((World.ofProject Demo.tracked).tracking 0).1.events 2) = [⟨228, .unknown, .bytes [2], 1⟩] ∧
    ((World.ofProject Demo.delayed).tracking 0).2 = none := by decide +kernel

/-! ## C83: paths -/

theorem pySplit_mem {sep : Nat} {s x : PStr} (h : x ∈ pySplit sep s) : sep ∉ x ∧ ∀ c ∈ x, c ∈ s := by
  induction s generalizing x with
  | nil => simp [pySplit] at h; subst h; simp
  | cons c cs ih =>
    unfold pySplit at h
    split at h
    · rcases List.mem_cons.1 h with rfl | h
      · simp
      · exact ⟨(ih h).1, fun d hd => List.mem_cons_of_mem _ ((ih h).2 d hd)⟩
    · next hc =>
      cases hp : pySplit sep cs with
      | nil => exact absurd hp (pySplit_ne_nil _ _)
      | cons p ps =>
        rw [hp] at h
        rcases List.mem_cons.1 h with rfl | h
        · have := ih (x := p) (by rw [hp]; simp)
          refine ⟨?_, ?_⟩
          · intro hm
            rcases List.mem_cons.1 hm with rfl | hm
            · exact hc rfl
            · exact this.1 hm
          · intro d hd
            rcases List.mem_cons.1 hd with rfl | hd
            · simp
            · exact List.mem_cons_of_mem _ (this.2 d hd)
        · have := ih (x := x) (by rw [hp]; simp [h])
          exact ⟨this.1, fun d hd => List.mem_cons_of_mem _ (this.2 d hd)⟩

theorem pyJoin_mem {sep : Nat} {ps : List PStr} {c : Nat} (h : c ∈ pyJoin sep ps) : c = sep ∨ ∃ p ∈ ps, c ∈ p := by
  induction ps with
  | nil => simp [pyJoin] at h
  | cons p ps ih =>
    cases ps with
    | nil => exact .inr ⟨p, by simp, h⟩
    | cons q qs =>
      simp only [pyJoin, List.mem_append, List.mem_cons] at h
      rcases h with h | h | h
      · exact .inr ⟨p, by simp, h⟩
      · exact .inl h
      · rcases ih h with ih | ⟨p', hp', hc⟩
        · exact .inl ih
        · exact .inr ⟨p', List.mem_cons_of_mem _ hp', hc⟩

/-- What `pathlib.Path` makes: at most two slashes, then names that are neither empty nor `.` and have no slash. -/
structure PosixPath.Wf (p : PosixPath) : Prop where
  root : p.root = [] ∨ p.root = [47] ∨ p.root = [47, 47]
  names : ∀ x ∈ p.names, x ≠ [] ∧ x ≠ [46] ∧ 47 ∉ x

theorem PosixPath.of_wf (s : PStr) : (PosixPath.of s).Wf := by
  refine ⟨?_, ?_⟩
  · simp only [PosixPath.of, splitRoot]
    split
    · exact .inl rfl
    · split
      · exact .inr (.inr rfl)
      · exact .inr (.inl rfl)
  · intro x hx
    simp only [PosixPath.of, List.mem_filter, Bool.and_eq_true, Bool.not_eq_true', bne_iff_ne, ne_eq] at hx
    refine ⟨?_, hx.2.2, (pySplit_mem hx.1).1⟩
    rintro rfl
    simp at hx

theorem dropWhile_slash {j : PStr} (h : ∀ c, j.head? = some c → c ≠ 47) : j.dropWhile (· == 47) = j := by
  cases j with
  | nil => rfl
  | cons c cs =>
    have : (c == 47) = false := by simpa using h c rfl
    simp [List.dropWhile, this]

theorem splitRoot_append {r j : PStr} (hr : r = [] ∨ r = [47] ∨ r = [47, 47]) (h : ∀ c, j.head? = some c → c ≠ 47) :
    splitRoot (r ++ j) = (r, j) := by
  have hd := dropWhile_slash h
  rcases hr with rfl | rfl | rfl
  · simp [splitRoot, hd]
  · have : ([47] ++ j).dropWhile (· == 47) = j := by simpa [List.dropWhile] using hd
    simp only [splitRoot, this, List.length_append, List.length_cons, List.length_nil]
    rw [if_neg (by omega), if_neg (by omega)]
  · have : ([47, 47] ++ j).dropWhile (· == 47) = j := by simpa [List.dropWhile] using hd
    simp only [splitRoot, this, List.length_append, List.length_cons, List.length_nil]
    rw [if_neg (by omega), if_pos (by omega)]

theorem pyJoin_head {ps : List PStr} (h : ∀ x ∈ ps, x ≠ [] ∧ 47 ∉ x) (c : Nat) (hc : (pyJoin 47 ps).head? = some c) :
    c ≠ 47 := by
  cases ps with
  | nil => simp [pyJoin] at hc
  | cons p ps =>
    obtain ⟨h1, h2⟩ := h p (by simp)
    cases p with
    | nil => exact absurd rfl h1
    | cons d ds =>
      have : c = d := by
        cases ps with
        | nil => simpa [pyJoin, eq_comm] using hc
        | cons q qs => simpa [pyJoin, eq_comm] using hc
      subst this
      rintro rfl
      simp at h2

theorem pyJoin_eq_nil {ps : List PStr} (h : ∀ x ∈ ps, x ≠ []) (hj : pyJoin 47 ps = []) : ps = [] := by
  cases ps with
  | nil => rfl
  | cons p ps =>
    exfalso
    have := h p (by simp)
    cases ps with
    | nil => exact this hj
    | cons q qs => simp [pyJoin] at hj

/-- The text stored for a path is read as that path. -/
theorem PosixPath.of_text {p : PosixPath} (h : p.Wf) : PosixPath.of (World.pathText p.str) = p := by
  have hn : ∀ x ∈ p.names, x ≠ [] ∧ 47 ∉ x := fun x hx => ⟨(h.names x hx).1, (h.names x hx).2.2⟩
  have key : PosixPath.of (p.root ++ pyJoin 47 p.names) = p := by
    unfold PosixPath.of
    rw [splitRoot_append h.root (pyJoin_head hn)]
    obtain ⟨root, names⟩ := p
    congr 1
    dsimp only
    by_cases hne : names = []
    · subst hne; rfl
    · rw [pySplit_pyJoin hne (fun x hx => (hn x hx).2)]
      refine List.filter_eq_self.2 fun x hx => ?_
      obtain ⟨h1, h2, -⟩ := h.names x hx
      cases x with
      | nil => exact absurd rfl h1
      | cons c cs => simpa using h2
  unfold PosixPath.str
  dsimp only
  split
  · next hs =>
    rw [List.isEmpty_iff] at hs
    rw [hs] at key
    exact key
  · unfold World.pathText
    split
    · next hs =>
      exfalso
      rw [hs] at key
      have h46 : PosixPath.of [46] = ⟨[], []⟩ := by decide
      rw [h46] at key
      rw [← key] at hs
      simp [pyJoin] at hs
    · exact key

/-- A character that can be stored in a text event of this class. -/
def Spec.Storable1 (k : Kind) (c : Nat) : Prop := c ≠ 0 ∧ (k = .ascii → c < 128) ∧ (k = .unicode → isScalar c)

theorem text_kind {evs : List Event} (h : WellTyped evs) {e : Event} (he : e ∈ evs) (ht : untypedText e.id) :
    e.kind = .ascii ∨ e.kind = .unicode := by
  obtain ⟨a, b, rfl⟩ := List.append_of_mem he
  have hk := (h a e b rfl).2.1
  obtain ⟨h1, h2⟩ := ht
  unfold kindOf at hk
  rw [h1] at hk
  dsimp only at hk
  rw [if_neg (by omega), if_neg (by omega), if_neg (by omega), if_pos (by omega)] at hk
  unfold textKind at hk
  split at hk
  · cases hk
  · split at hk
    · cases hk
    · injection hk with hk
      rw [← hk]
      split
      · exact .inr rfl
      · exact .inl rfl

theorem text_value [FloatEnv] {w : World} (h : Storable w) {e : Event} (he : e ∈ w.project.events) (ht : untypedText e.id) :
    ∃ s, e.value = .str s := by
  have hv := h.valid e he
  rcases text_kind h.typed he ht with hk | hk <;> rw [hk] at hv <;> revert hv <;> cases e.value <;>
    simp [validValue, Kind.leaf]

theorem valid_text [FloatEnv] {k : Kind} (hk : k = .ascii ∨ k = .unicode) {len : Nat} {s : PStr}
    (h : ∀ c ∈ s, Storable1 k c) : validValue k len (.str s) := by
  have h0 : s.getLast? ≠ some 0 := fun hl => (h 0 (List.mem_of_getLast? hl)).1 rfl
  rcases hk with rfl | rfl
  · exact ⟨fun c hc => (h c hc).2.1 rfl, h0⟩
  · exact ⟨fun c hc => (h c hc).2.2 rfl, h0⟩

/-- The characters of the text of a path are those it was made from, or slashes. -/
theorem pathText_mem {q : PStr} {c : Nat} (h : c ∈ World.pathText (PosixPath.of q).str) : c ∈ q ∨ c = 47 := by
  unfold World.pathText at h
  split at h
  · cases h
  · next hne =>
    unfold PosixPath.str at h hne
    dsimp only at h hne
    split at h
    · next he => rw [if_pos he] at hne; exact absurd rfl hne
    · rcases List.mem_append.1 h with h | h
      · rcases (PosixPath.of_wf q).root with hr | hr | hr <;> rw [hr] at h <;> simp at h <;> exact .inr h
      · rcases pyJoin_mem h with h | ⟨p, hp, hc⟩
        · exact .inr h
        · simp only [PosixPath.of, List.mem_filter] at hp
          have := (pySplit_mem hp.1).2 c hc
          left
          unfold splitRoot at this
          dsimp only at this
          split at this
          · exact this
          · split at this <;> exact (List.dropWhile_sublist _).mem this

theorem world_mem {w : World} {L : Nat → Prop} (r : WReach w L) {t : Nat} (ht : L t) {e : Event} (he : e ∈ w.events t) :
    e ∈ w.project.events := by
  rw [World.events_eq] at he
  obtain ⟨z, hz, rfl⟩ := List.mem_map.1 he
  show _ ∈ w.events 0
  rw [World.events_eq]
  exact List.mem_map.2 ⟨z, (wreach_sub r ht).1.mem hz, rfl⟩

theorem text_of [FloatEnv] {w : World} {L : Nat → Prop} (r : WReach w L) {t : Nat} (ht : L t) (hst : Storable w)
    {id : Nat} (hid : untypedText id) {v : Value} (h : valueOf (w.events t) id = some v) : ∃ s, v = .str s := by
  obtain ⟨e, he, rfl, rfl⟩ := valueOf_mem h
  exact text_value hst (world_mem r ht he) hid

theorem path_eq {w : World} {L : Nat → Prop} (r : WReach w L) {t : Nat} (ht : L t) {id : Nat} {s : PStr}
    (h : valueOf (w.events t) id = some (.str s)) : w.path t id = .ok (some (.of s)) := by
  unfold World.path
  rw [World.contains_eq r ht, h, if_pos Option.isSome_some, World.firstVal_eq r ht h]

theorem path_none {w : World} {L : Nat → Prop} (r : WReach w L) {t : Nat} (ht : L t) {id : Nat}
    (h : valueOf (w.events t) id = none) : w.path t id = .ok none := by
  unfold World.path
  rw [World.contains_eq r ht, h, if_neg (by simp)]

theorem path_set [FloatEnv] {w : World} {L : Nat → Prop} (r : WReach w L) {t : Nat} (ht : L t) (hst : Storable w)
    {id : Nat} (hid : untypedText id) (h199 : id ≠ 199) (h201 : id ≠ 201) {v : Value}
    (h : valueOf (w.events t) id = some v) (text : PStr) :
    ∃ w', w.setFirstVal t id (.str text) = (w', .ok ()) ∧ w'.path t id = .ok (some (.of text)) ∧ WReach w' L ∧
      valueOf (w'.events t) id = some (.str text) ∧ ChangedOnly w w' t [id] ∧
      ((∀ e ∈ w.project.events, e.id = id → ∀ c ∈ text, Storable1 e.kind c) → Storable w') := by
  obtain ⟨w', s1, s2⟩ := setFirstVal_spec r ht (id := id) (by rw [h]; rfl) (.str text)
  have hval : valueOf (w'.events t) id = some (.str text) := by
    rw [s2.model, valueOf_setFirst_self (by rw [h]; rfl)]
  refine ⟨w', s1, path_eq s2.reach ht hval, s2.reach, hval, s2.changedOnly (by simp), fun hc => ?_⟩
  refine assigned_storable s2 hst h199 h201 fun e he heid _ => ?_
  exact valid_text (text_kind hst.typed he (heid ▸ hid)) (hc e he heid)

theorem text196 : untypedText 196 := ⟨by decide +kernel, .inl (by omega)⟩

theorem text202 : untypedText 202 := ⟨by decide +kernel, .inl (by omega)⟩

theorem slash_storable (k : Kind) : Storable1 k 47 := ⟨by decide, fun _ => by decide, fun _ => .inl (by decide)⟩

/-- C83, samples: `sample_path` is the path with the stored text; after `sample_path = Path(q)` it is `Path(q)`.  Only the
stored text changes, and it is saved if the characters of `q` can be.  Without the event the path is `None` and cannot be
set. -/
theorem C83_sample_path [FloatEnv] {w : World} {L : Nat → Prop} (r : WReach w L) {t : Nat} (ht : L t) (hst : Storable w)
    (q : PStr) :
    (∃ s, valueOf (w.events t) 196 = some (.str s) ∧ w.path t 196 = .ok (some (.of s)) ∧
      ∃ w', w.setSamplePath t (.of q) = (w', .ok ()) ∧ w'.path t 196 = .ok (some (.of q)) ∧ WReach w' L ∧
        ChangedOnly w w' t [196] ∧
        ((∀ e ∈ w.project.events, e.id = 196 → ∀ c ∈ q, Storable1 e.kind c) → Storable w')) ∨
    (valueOf (w.events t) 196 = none ∧ w.path t 196 = .ok none ∧
      w.setSamplePath t (.of q) = (w, .error .propertyCannotBeSet)) := by
  cases h : valueOf (w.events t) 196 with
  | none =>
    refine .inr ⟨rfl, path_none r ht h, ?_⟩
    unfold World.setSamplePath
    rw [path_none r ht h]
  | some v =>
    obtain ⟨s, rfl⟩ := text_of r ht hst text196 h
    refine .inl ⟨s, rfl, path_eq r ht h, ?_⟩
    obtain ⟨w', p1, p2, p3, -, p4, p5⟩ :=
      path_set r ht hst text196 (by decide) (by decide) h (World.pathText (PosixPath.of q).str)
    rw [PosixPath.of_text (PosixPath.of_wf q)] at p2
    refine ⟨w', ?_, p2, p3, p4, fun hc => p5 fun e he hid c hcm => ?_⟩
    · unfold World.setSamplePath
      rw [path_eq r ht h]
      exact p1
    · rcases pathText_mem hcm with hq | rfl
      · exact hc e he hid c hq
      · exact slash_storable _

/-- C83, the data folder: after `data_path = q` it is `Path(q)`, and for a string `q` other than `.` the stored text is `q`
itself. -/
theorem C83_data_path [FloatEnv] {w : World} {L : Nat → Prop} (r : WReach w L) {t : Nat} (ht : L t) (hst : Storable w)
    (q : PStr) :
    (∃ s, valueOf (w.events t) 202 = some (.str s) ∧ w.path t 202 = .ok (some (.of s)) ∧
      (∃ w', w.setDataPath t q = (w', .ok ()) ∧ w'.path t 202 = .ok (some (.of q)) ∧ WReach w' L ∧
        (q ≠ PStr.lit "." → valueOf (w'.events t) 202 = some (.str q)) ∧ ChangedOnly w w' t [202] ∧
        ((∀ e ∈ w.project.events, e.id = 202 → ∀ c ∈ q, Storable1 e.kind c) → Storable w')) ∧
      (∃ w', w.setDataPath t (PosixPath.of q).str = (w', .ok ()) ∧ w'.path t 202 = .ok (some (.of q)) ∧ WReach w' L ∧
        ChangedOnly w w' t [202] ∧
        ((∀ e ∈ w.project.events, e.id = 202 → ∀ c ∈ q, Storable1 e.kind c) → Storable w'))) ∨
    (valueOf (w.events t) 202 = none ∧ w.path t 202 = .ok none ∧
      w.setDataPath t q = (w, .error .propertyCannotBeSet)) := by
  cases h : valueOf (w.events t) 202 with
  | none =>
    refine .inr ⟨rfl, path_none r ht h, ?_⟩
    unfold World.setDataPath
    rw [World.contains_eq r ht, h, if_neg (by simp)]
  | some v =>
    obtain ⟨s, rfl⟩ := text_of r ht hst text202 h
    refine .inl ⟨s, rfl, path_eq r ht h, ?_, ?_⟩
    · obtain ⟨w', p1, p2, p3, p0, p4, p5⟩ := path_set r ht hst text202 (by decide) (by decide) h (World.pathText q)
      refine ⟨w', ?_, ?_, p3, ?_, p4, fun hc => p5 fun e he hid c hcm => ?_⟩
      · unfold World.setDataPath
        rw [World.contains_eq r ht, h, if_pos Option.isSome_some]
        exact p1
      · rw [p2]
        unfold World.pathText
        split
        · next hq => subst hq; rfl
        · rfl
      · intro hq
        rw [p0]
        unfold World.pathText
        rw [if_neg (show ¬ q = [46] from hq)]
      · unfold World.pathText at hcm
        split at hcm
        · cases hcm
        · exact hc e he hid c hcm
    · obtain ⟨w', p1, p2, p3, -, p4, p5⟩ :=
        path_set r ht hst text202 (by decide) (by decide) h (World.pathText (PosixPath.of q).str)
      rw [PosixPath.of_text (PosixPath.of_wf q)] at p2
      refine ⟨w', ?_, p2, p3, p4, fun hc => p5 fun e he hid c hcm => ?_⟩
      · unfold World.setDataPath
        rw [World.contains_eq r ht, h, if_pos Option.isSome_some]
        exact p1
      · rcases pathText_mem hcm with hq | rfl
        · exact hc e he hid c hq
        · exact slash_storable _

/-- A sampler with a path and a data folder. -/
def Demo.sampled (path : String) : Project := ⟨0, 1, 96, [⟨199, .ascii, .str (PStr.lit "20.8.3"), 7⟩,
  ⟨64, .u16, .lv (.int 0), 2⟩, ⟨196, .unicode, .str (PStr.lit path), 10⟩, ⟨202, .unicode, .str (PStr.lit "/d"), 6⟩]⟩

theorem Demo.sampled_storable [FloatEnv] : Storable (World.ofProject (Demo.sampled "a//b")) := by
  refine ⟨by decide, by decide, by rw [ofProject_project]; exact Demo.wellTyped_of (by decide +kernel), ?_⟩
  rw [ofProject_project]
  intro e he
  simp only [Demo.sampled, List.mem_cons, List.not_mem_nil, or_false] at he
  rcases he with rfl | rfl | rfl | rfl
  · exact ⟨by decide, by decide⟩
  · exact ⟨_, rfl, rfl⟩
  · exact valid_text (.inr rfl) (by unfold Storable1 isScalar; decide +kernel)
  · exact valid_text (.inr rfl) (by unfold Storable1 isScalar; decide +kernel)

/-- The hypotheses of `C83_sample_path` and `C83_data_path` can be met. -/
example [FloatEnv] : Storable (World.ofProject (Demo.sampled "a//b")) ∧
    (World.ofProject (Demo.sampled "a//b")).path 0 196 = .ok (some ⟨[], [PStr.lit "a", PStr.lit "b"]⟩) ∧
    (World.ofProject (Demo.sampled "a//b")).path 0 202 = .ok (some ⟨[47], [PStr.lit "d"]⟩) :=
  ⟨Demo.sampled_storable, by decide +kernel, by decide +kernel⟩

/-- Assigning the path that was read can change the file: the text is normalised. -/
theorem C83_text_refuted :
    ¬ (∀ (w : World) (p : PosixPath), w.path 0 196 = .ok (some p) → (w.setSamplePath 0 p).1.project = w.project) := by
  intro h
  exact absurd (h (World.ofProject (Demo.sampled "a//b")) ⟨[], [PStr.lit "a", PStr.lit "b"]⟩ (by decide +kernel))
    (by decide +kernel)

/-! ### Properties of one event -/

theorem single_event {w : World} {L : Nat → Prop} (r : WReach w L) {t : Nat} (ht : L t) (id : Nat) :
    (∃ ref, w.getEvent t [id] = .ok (some ref) ∧ w.heap.first t id = .ok ref ∧
      valueOf (w.events t) id = some (w.ev ref).value ∧ (w.ev ref).id = id) ∨
    (w.getEvent t [id] = .ok none ∧ valueOf (w.events t) id = none) := by
  unfold World.getEvent World.firstOf World.firstOf
  rw [if_neg (by simp), World.contains_eq r ht]
  rcases World.first_value r ht id with ⟨ref, f1, _, f2, f3⟩ | ⟨_, f2⟩
  · left
    rw [f2, if_pos (by simp), f1]
    exact ⟨ref, rfl, rfl, rfl, f3⟩
  · right
    rw [f2]
    simp

theorem first_mem {w : World} {t id ref : Nat} (h : w.heap.first t id = .ok ref) : w.ev ref ∈ w.events t := by
  rcases first_spec w.heap t id with ⟨pre, post, ref', h1, h2, h3⟩ | ⟨h1, h2⟩
  · rw [h1] at h
    cases h
    unfold World.events
    rw [World.refs_eq, h2]
    simp
  · rw [h1] at h; cases h

theorem eventProp_write {w : World} {L : Nat → Prop} (r : WReach w L) {t : Nat} (ht : L t) {id : Nat}
    (h : (valueOf (w.events t) id).isSome) :
    ∃ ref, (w.ev ref).id = id ∧ w.ev ref ∈ w.events t ∧
      ∀ v, (eventProp [id]).write w t v = (w.setEv ref { w.ev ref with value := v }, .ok ()) ∧
        Assigned w (w.setEv ref { w.ev ref with value := v }) L t id v := by
  rcases single_event r ht id with ⟨ref, f1, f4, f2, f3⟩ | ⟨_, f2⟩
  · refine ⟨ref, f3, first_mem f4, fun v => ⟨?_, assigned_first r ht v f4 f3 f2⟩⟩
    unfold Descr.write
    rw [if_neg (by simp [eventProp]), show (eventProp [id]).ids = [id] from rfl, f1]
    rfl
  · rw [f2] at h; cases h

end PyFLP
