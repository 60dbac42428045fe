import Verif.Plugins
import Verif.Props.ChannelProps
/-!
# C87 – C89: properties of VST plugins
-/

namespace PyFLP
open Spec

namespace Spec

/-- The model `t` has the data of a VST plugin, with these sub-events. -/
def HasSubs (w : World) (t : Nat) (type : Int) (subs : List (Int × VstData)) : Prop :=
  valueOf (w.events t) 213 = some (.vst type subs)

/-- No sub-event has the id. -/
def Without (subs : List (Int × VstData)) (id : Int) : Prop := ∀ x ∈ subs, x.1 ≠ id

/-- The texts of a VST plugin: its properties and their sub-events. -/
def vstTexts : List (String × Int) := [("fourcc", 51), ("name", 54), ("plugin_path", 55), ("vendor", 56)]

/-- The byte strings. -/
def vstBlobs : List (String × Int) := [("guid", 52), ("state", 53)]

/-- The numbers, and one boolean. -/
def vstNumbers : List (String × Int) := [("input", 1), ("output", 1), ("pb_range", 1), ("fast_idle", 2)]

end Spec

/-- The properties with sub-events are those of the program. -/
theorem vst_properties : (vstTexts ++ vstBlobs ++ vstNumbers).length = vstProps.length ∧
    ∀ p ∈ vstProps, (p.2.2, p.2.1) ∈ vstTexts ++ vstBlobs ++ vstNumbers := by decide

/-! ### Sub-events -/

theorem vstReplace_split {id : Int} {a b : List (Int × VstData)} {d : VstData} (ha : Without a id)
    (f : VstData → Py VstData) :
    vstReplace id f (a ++ (id, d) :: b) = (f d).map fun d' => a ++ (id, d') :: b := by
  induction a with
  | nil => simp [vstReplace]
  | cons x a ih =>
    obtain ⟨i, e⟩ := x
    rw [List.cons_append, vstReplace, if_neg (ha (i, e) (by simp)), ih fun y hy => ha y (by simp [hy])]
    cases f d <;> rfl

theorem vstReplace_without {id : Int} {es : List (Int × VstData)} (h : Without es id) (f : VstData → Py VstData) :
    vstReplace id f es = .ok es := by
  induction es with
  | nil => rfl
  | cons x es ih =>
    obtain ⟨i, e⟩ := x
    rw [vstReplace, if_neg (h (i, e) (by simp)), ih fun y hy => h y (by simp [hy])]
    rfl

theorem sub_split {id : Int} {a b : List (Int × VstData)} {d : VstData} (ha : Without a id) :
    (a ++ (id, d) :: b).find? (fun e => e.1 == id) = some (id, d) := by
  rw [List.find?_append]
  have : a.find? (fun e => e.1 == id) = none := by
    rw [List.find?_eq_none]
    intro x hx
    simpa using ha x hx
  rw [this]
  simp

theorem sub_other {id id' : Int} {a b : List (Int × VstData)} {d d' : VstData} (h : id' ≠ id) :
    (a ++ (id, d) :: b).find? (fun e => e.1 == id') = (a ++ (id, d') :: b).find? (fun e => e.1 == id') := by
  rw [List.find?_append, List.find?_append]
  have : (id == id') = false := by simp [Ne.symm h]
  simp [List.find?_cons, this]

theorem sub_cases (es : List (Int × VstData)) (id : Int) :
    Without es id ∨ ∃ a d b, es = a ++ (id, d) :: b ∧ Without a id := by
  induction es with
  | nil => left; intro x hx; cases hx
  | cons x es ih =>
    obtain ⟨i, e⟩ := x
    by_cases hi : i = id
    · subst hi
      exact .inr ⟨[], e, es, rfl, fun x hx => by cases hx⟩
    · rcases ih with h | ⟨a, d, b, rfl, h⟩
      · left
        intro x hx
        rcases List.mem_cons.1 hx with rfl | hx
        · exact hi
        · exact h x hx
      · refine .inr ⟨(i, e) :: a, d, b, rfl, fun x hx => ?_⟩
        rcases List.mem_cons.1 hx with rfl | hx
        · exact hi
        · exact h x hx

theorem vstFind_eq {w : World} {L : Nat → Prop} (r : WReach w L) {t : Nat} (ht : L t) {ty : Int}
    {es : List (Int × VstData)} (h : HasSubs w t ty es) (id : Int) :
    w.vstFind t id = match es.find? fun e => e.1 == id with
      | some e => .ok e.2
      | none => .error .attributeError := by
  unfold World.vstFind
  rcases World.first_value r ht 213 with ⟨ref, f1, _, f2, _⟩ | ⟨_, f2⟩
  · rw [f1]
    unfold HasSubs at h
    rw [h] at f2
    injection f2 with f2
    simp only [← f2]
    rfl
  · unfold HasSubs at h; rw [h] at f2; cases f2

theorem vstFind_nodata {w : World} {L : Nat → Prop} (r : WReach w L) {t : Nat} (ht : L t)
    (h : valueOf (w.events t) 213 = none) (id : Int) : w.vstFind t id = .error .keyError := by
  unfold World.vstFind
  rcases World.first_value r ht 213 with ⟨ref, f1, _, f2, _⟩ | ⟨f1, _⟩
  · rw [h] at f2; cases f2
  · rw [f1]

theorem vstUpdate_nodata {w : World} {L : Nat → Prop} (r : WReach w L) {t : Nat} (ht : L t)
    (h : valueOf (w.events t) 213 = none) (id : Int) (f : VstData → Py VstData) :
    w.vstUpdate t id f = (w, .error .keyError) := by
  unfold World.vstUpdate
  rcases World.first_value r ht 213 with ⟨ref, f1, _, f2, _⟩ | ⟨f1, _⟩
  · rw [h] at f2; cases f2
  · rw [f1]

theorem vstUpdate_split {w : World} {L : Nat → Prop} (r : WReach w L) {t : Nat} (ht : L t) {ty id : Int}
    {a b : List (Int × VstData)} {d : VstData} (h : HasSubs w t ty (a ++ (id, d) :: b)) (ha : Without a id)
    (f : VstData → Py VstData) :
    (∀ e, f d = .error e → w.vstUpdate t id f = (w, .error e)) ∧
    (∀ d', f d = .ok d' → ∃ w', w.vstUpdate t id f = (w', .ok ()) ∧
      Assigned w w' L t 213 (.vst ty (a ++ (id, d') :: b)) ∧ HasSubs w' t ty (a ++ (id, d') :: b)) := by
  unfold World.vstUpdate
  unfold HasSubs at h
  rcases World.first_value r ht 213 with ⟨ref, f1, _, f2, f3⟩ | ⟨_, f2⟩
  · have f4 := f2
    rw [h] at f2
    injection f2 with f2
    rw [f1]
    simp only [← f2, vstReplace_split ha]
    refine ⟨fun e he => by rw [he]; rfl, fun d' hd' => ?_⟩
    rw [hd']
    have has := assigned_first r ht (.vst ty (a ++ (id, d') :: b)) f1 f3 f4
    exact ⟨_, rfl, has, by unfold HasSubs; rw [has.model, valueOf_setFirst_self (by rw [h]; rfl)]⟩
  · rw [h] at f2; cases f2

theorem setEv_self {w : World} {ref : Nat} (h : ref < w.store.length) : w.setEv ref (w.ev ref) = w := by
  unfold World.setEv World.ev
  rw [List.getD_eq_getElem?_getD, List.getElem?_eq_getElem h]
  simp

theorem vstUpdate_without {w : World} {L : Nat → Prop} (r : WReach w L) {t : Nat} (ht : L t) {ty id : Int}
    {es : List (Int × VstData)} (h : HasSubs w t ty es) (ha : Without es id) (f : VstData → Py VstData) :
    w.vstUpdate t id f = (w, .ok ()) := by
  unfold World.vstUpdate
  unfold HasSubs at h
  rcases World.first_value r ht 213 with ⟨ref, f1, fl, f2, f3⟩ | ⟨_, f2⟩
  · rw [h] at f2
    injection f2 with f2
    rw [f1]
    simp only [← f2, vstReplace_without ha]
    have := setEv_self fl
    rw [show ({ w.ev ref with value := .vst ty es } : Event) = w.ev ref by rw [f2]]
    rw [this]
  · rw [h] at f2; cases f2

/-! ### Storable sub-events -/

section
variable [FloatEnv]

theorem utf8Encode_length {s : PStr} {b : Bytes} (h : utf8Encode s = .ok b) : b.length ≤ 4 * s.length := by
  induction s generalizing b with
  | nil => cases h; simp
  | cons c cs ih =>
    unfold utf8Encode at h
    cases hc : utf8Char c with
    | none => rw [hc] at h; cases h
    | some x =>
      cases hs : utf8Encode cs with
      | error e => rw [hc, hs] at h; cases h
      | ok y =>
        rw [hc, hs] at h
        cases h
        have := ih hs
        have hx : x.length ≤ 4 := by
          unfold utf8Char at hc
          repeat' split at hc
          all_goals first | cases hc | skip
          all_goals simp
        simp only [List.length_append, List.length_cons]
        omega

theorem subs_valid {w : World} {L : Nat → Prop} (r : WReach w L) {t : Nat} (ht : L t) (hst : Storable w) {ty : Int}
    {es : List (Int × VstData)} (h : HasSubs w t ty es) :
    (0 ≤ ty ∧ ty < 2 ^ 32) ∧ ∀ x ∈ es, validVst x := by
  obtain ⟨e, he, hid, hv⟩ := valueOf_mem h
  have := hst.valid e (world_mem r ht he)
  rw [hv] at this
  cases hk : e.kind <;> rw [hk] at this <;> first | exact this | exact absurd this (by simp [validValue])

theorem subs_storable {w w' : World} {L : Nat → Prop} {t : Nat} {ty id : Int}
    {a b : List (Int × VstData)} {d d' : VstData} (h : HasSubs w t ty (a ++ (id, d) :: b))
    (has : Assigned w w' L t 213 (.vst ty (a ++ (id, d') :: b))) (hst : Storable w) (hd : validVst (id, d')) :
    Storable w' := by
  refine assigned_storable has hst (by decide) (by decide) fun e he hid hv => ?_
  have hv' : e.value = .vst ty (a ++ (id, d) :: b) := by
    unfold HasSubs at h
    rw [h] at hv
    injection hv with hv
    exact hv.symm
  have hval := hst.valid e he
  rw [hv'] at hval
  have hk : e.kind = .vst := by
    cases hk : e.kind <;> rw [hk] at hval <;> first | rfl | exact absurd hval (by simp [validValue])
  rw [hk] at hval ⊢
  refine ⟨hval.1, fun x hx => ?_⟩
  simp only [List.mem_append, List.mem_cons] at hx
  rcases hx with hx | rfl | hx
  · exact hval.2 x (by simp [hx])
  · exact hd
  · exact hval.2 x (by simp [hx])

end

/-! ## C87: texts and bytes -/

theorem vstGet_split {w : World} {L : Nat → Prop} (r : WReach w L) {t : Nat} (ht : L t) {ty id : Int}
    {a b : List (Int × VstData)} {d : VstData} (h : HasSubs w t ty (a ++ (id, d) :: b)) (ha : Without a id) :
    w.vstFind t id = .ok d := by
  rw [vstFind_eq r ht h, sub_split ha]

theorem vstGet_without {w : World} {L : Nat → Prop} (r : WReach w L) {t : Nat} (ht : L t) {ty id : Int}
    {es : List (Int × VstData)} (h : HasSubs w t ty es) (ha : Without es id) :
    w.vstFind t id = .error .attributeError := by
  rw [vstFind_eq r ht h]
  have : es.find? (fun e => e.1 == id) = none := by
    rw [List.find?_eq_none]
    intro x hx
    simpa using ha x hx
  rw [this]

theorem vstFind_other {w w' : World} {L : Nat → Prop} (r : WReach w L) (r' : WReach w' L) {t : Nat} (ht : L t) {ty id id' : Int}
    {a b : List (Int × VstData)} {d d' : VstData} (h : HasSubs w t ty (a ++ (id, d) :: b))
    (h' : HasSubs w' t ty (a ++ (id, d') :: b)) (hne : id' ≠ id) : w'.vstFind t id' = w.vstFind t id' := by
  rw [vstFind_eq r ht h, vstFind_eq r' ht h', sub_other hne]

/-- C87, reading: a text or byte string is the data of the first sub-event with the id of the property; if there is none,
`AttributeError` is raised, and `KeyError` if there is no plugin data. -/
theorem C87_get [FloatEnv] {w : World} {L : Nat → Prop} (r : WReach w L) {t : Nat} (ht : L t) (hst : Storable w) :
    (valueOf (w.events t) 213 = none → ∀ id key, w.vstGet t id key = .error .keyError) ∧
    ∀ ty es, HasSubs w t ty es →
      (∀ id key, Without es id → w.vstGet t id key = .error .attributeError) ∧
      (∀ key id, (key, id) ∈ vstTexts → ¬ Without es id →
        ∃ a s b, es = a ++ (id, .str s) :: b ∧ Without a id ∧ w.vstGet t id key = .ok (some (.str s))) ∧
      (∀ key id, (key, id) ∈ vstBlobs → ¬ Without es id →
        ∃ a s b, es = a ++ (id, .raw s) :: b ∧ Without a id ∧ w.vstGet t id key = .ok (some (.bytes s))) := by
  refine ⟨fun h id key => by unfold World.vstGet; rw [vstFind_nodata r ht h], fun ty es h => ⟨fun id key hw => ?_, ?_, ?_⟩⟩
  · unfold World.vstGet; rw [vstGet_without r ht h hw]
  · intro key id hmem hne
    rcases sub_cases es id with hw | ⟨a, d, b, rfl, hw⟩
    · exact absurd hw hne
    · have hv := (subs_valid r ht hst h).2 (id, d) (by simp)
      have hid : vstIsText id = true ∧ id ≠ 1 ∧ id ≠ 2 := by
        revert hmem
        simp only [vstTexts, List.mem_cons, Prod.mk.injEq, List.not_mem_nil, or_false]
        rintro (⟨-, rfl⟩ | ⟨-, rfl⟩ | ⟨-, rfl⟩ | ⟨-, rfl⟩) <;> decide
      cases d with
      | str s => exact ⟨a, s, b, rfl, hw, by unfold World.vstGet; rw [vstGet_split r ht h hw]; rfl⟩
      | fields r => exact absurd hv.2.2 (by simp [hid.2.1, hid.2.2])
      | raw bs => exact absurd hv.2.2 (by simp [hid.1])
      | lv x => exact hv.2.2.elim
  · intro key id hmem hne
    rcases sub_cases es id with hw | ⟨a, d, b, rfl, hw⟩
    · exact absurd hw hne
    · have hv := (subs_valid r ht hst h).2 (id, d) (by simp)
      have hid : vstIsText id = false ∧ id ≠ 1 ∧ id ≠ 2 := by
        revert hmem
        simp only [vstBlobs, List.mem_cons, Prod.mk.injEq, List.not_mem_nil, or_false]
        rintro (⟨-, rfl⟩ | ⟨-, rfl⟩) <;> decide
      cases d with
      | raw s => exact ⟨a, s, b, rfl, hw, by unfold World.vstGet; rw [vstGet_split r ht h hw]; rfl⟩
      | fields r => exact absurd hv.2.2 (by simp [hid.2.1, hid.2.2])
      | str bs => exact absurd hv.2.2 (by simp [hid.1])
      | lv x => exact hv.2.2.elim

/-- A text or byte string of a property, and when it can be stored. -/
inductive Spec.VstText (id : Int) : LV → Prop
  | text (key : String) (h : (key, id) ∈ vstTexts) (s : PStr) (hs : ∀ c ∈ s, isScalar c) (hl : s.length < 2 ^ 61) :
      VstText id (.str s)
  | blob (key : String) (h : (key, id) ∈ vstBlobs) (bs : Bytes) (hl : bs.length < 2 ^ 64) : VstText id (.bytes bs)

/-- C87, assigning, where the plugin has the sub-event: the value is read back, every other sub-event and event stays, and the
project can be saved.  Missing: plugins without the sub-event, see `C87_lost_refuted`. -/
theorem C87_set_partial [FloatEnv] {w : World} {L : Nat → Prop} (r : WReach w L) {t : Nat} (ht : L t) {ty id : Int}
    {a b : List (Int × VstData)} {d : VstData} (h : HasSubs w t ty (a ++ (id, d) :: b)) (ha : Without a id) {x : LV}
    (hx : VstText id x) :
    ∃ w' d', w.vstSet t id x = (w', .ok ()) ∧ (∀ key, w'.vstGet t id key = .ok (some x)) ∧
      HasSubs w' t ty (a ++ (id, d') :: b) ∧ Assigned w w' L t 213 (.vst ty (a ++ (id, d') :: b)) ∧
      (∀ id' key, id' ≠ id → w'.vstGet t id' key = w.vstGet t id' key) ∧ (Storable w → Storable w') := by
  obtain ⟨w', u1, u2, u3⟩ := (vstUpdate_split r ht h ha fun _ => .ok (vstData x)).2 _ rfl
  refine ⟨w', vstData x, u1, fun key => ?_, u3, u2, fun id' key hne => ?_, fun hst => ?_⟩
  · unfold World.vstGet
    rw [vstGet_split u2.reach ht u3 ha]
    cases hx <;> rfl
  · unfold World.vstGet
    rw [vstFind_other r u2.reach ht h u3 hne]
  · have hid := ((subs_valid r ht hst h).2 (id, d) (by simp)).1
    refine subs_storable h u2 hst ⟨hid, ?_⟩
    cases hx with
    | text key hk s hs hl =>
      have ht : vstIsText id = true ∧ id ≠ 1 ∧ id ≠ 2 := by
        revert hk
        simp only [vstTexts, List.mem_cons, Prod.mk.injEq, List.not_mem_nil, or_false]
        rintro (⟨-, rfl⟩ | ⟨-, rfl⟩ | ⟨-, rfl⟩ | ⟨-, rfl⟩) <;> decide
      refine ⟨fun y hy => ?_, ht.1, hs⟩
      simp only [vstData, vstDataBuild, ht.2.1, ht.2.2, ht.1, if_false, if_true] at hy
      have := utf8Encode_length hy
      omega
    | blob key hk bs hl =>
      have ht : vstIsText id = false ∧ id ≠ 1 ∧ id ≠ 2 := by
        revert hk
        simp only [vstBlobs, List.mem_cons, Prod.mk.injEq, List.not_mem_nil, or_false]
        rintro (⟨-, rfl⟩ | ⟨-, rfl⟩) <;> decide
      refine ⟨fun y hy => ?_, ht.2.1, ht.2.2, ht.1⟩
      simp [vstData, vstDataBuild, ht.2.1, ht.2.2, ht.1] at hy
      rw [← hy]
      exact hl

/-- C87 is false for plugins without the sub-event: the assignment has no effect, and no exception says so. -/
theorem C87_lost_refuted {w : World} {L : Nat → Prop} (r : WReach w L) {t : Nat} (ht : L t) {ty id : Int}
    {es : List (Int × VstData)} (h : HasSubs w t ty es) (ha : Without es id) (x : LV) :
    w.vstSet t id x = (w, .ok ()) ∧ ∀ key, w.vstGet t id key = .error .attributeError :=
  ⟨vstUpdate_without r ht h ha _, fun key => by unfold World.vstGet; rw [vstGet_without r ht h ha]⟩

/-- C87: without plugin data an assignment raises `KeyError`, and nothing changes. -/
theorem C87_nodata {w : World} {L : Nat → Prop} (r : WReach w L) {t : Nat} (ht : L t)
    (h : valueOf (w.events t) 213 = none) (id : Int) (x : LV) : w.vstSet t id x = (w, .error .keyError) :=
  vstUpdate_nodata r ht h id _


/-! ## C88: numbers -/

section
variable [FloatEnv]

theorem validFields_typed {cx : Ctx} {fs : Fields} (hn : (fs.map Prod.fst).Nodup) {r : Rec} (h : validFields cx fs r) :
    FieldsTyped fs r := by
  obtain ⟨bs, _, h2⟩ := struct_roundtrip cx h
  exact structParse_typed hn h2

theorem subs_fields {w : World} {L : Nat → Prop} (r : WReach w L) {t : Nat} (ht : L t) (hst : Storable w) {ty id : Int}
    {es : List (Int × VstData)} (h : HasSubs w t ty es) (hid : id = 1 ∨ id = 2) (hne : ¬ Without es id) :
    ∃ a rec b, es = a ++ (id, .fields rec) :: b ∧ Without a id ∧
      validFields ⟨0⟩ (if id = 1 then vstMidi else vstFlags) rec := by
  rcases sub_cases es id with hw | ⟨a, d, b, rfl, hw⟩
  · exact absurd hw hne
  · have hv := ((subs_valid r ht hst h).2 (id, d) (by simp)).2.2
    cases d with
    | fields rec =>
      refine ⟨a, rec, b, rfl, hw, ?_⟩
      rcases hv with ⟨h1, hv⟩ | ⟨h1, hv⟩ <;> dsimp only at h1 <;> subst h1
      · exact hv
      · exact hv
    | str s => rcases hid with rfl | rfl <;> exact absurd hv (by simp [vstIsText])
    | raw s => rcases hid with rfl | rfl <;> exact absurd hv (by simp)
    | lv x => exact hv.elim

/-- C88, reading: the number in the MIDI or flags data of the plugin, `None` if the data is too short. -/
theorem C88_get_partial {w : World} {L : Nat → Prop} (r : WReach w L) {t : Nat} (ht : L t) (hst : Storable w) {ty : Int}
    {es : List (Int × VstData)} (h : HasSubs w t ty es) {key : String} {id : Int} (hk : (key, id) ∈ vstNumbers) :
    (Without es id ∧ w.vstGet t id key = .error .attributeError) ∨
    ∃ a rec b x, es = a ++ (id, .fields rec) :: b ∧ Without a id ∧ Rec.lookup rec key = some x ∧
      w.vstGet t id key = .ok x := by
  by_cases hne : Without es id
  · exact .inl ⟨hne, by unfold World.vstGet; rw [vstGet_without r ht h hne]⟩
  · right
    have hid : (id = 1 ∨ id = 2) ∧ ((if id = 1 then vstMidi else vstFlags).map Prod.fst).Nodup ∧
        key ∈ (if id = 1 then vstMidi else vstFlags).map Prod.fst := by
      revert hk
      simp only [vstNumbers, List.mem_cons, Prod.mk.injEq, List.not_mem_nil, or_false]
      rintro (⟨rfl, rfl⟩ | ⟨rfl, rfl⟩ | ⟨rfl, rfl⟩ | ⟨rfl, rfl⟩) <;> decide
    obtain ⟨a, rec, b, rfl, hw, hv⟩ := subs_fields r ht hst h hid.1 hne
    obtain ⟨x, hx⟩ := typed_field (validFields_typed hid.2.1 hv) hid.2.2
    refine ⟨a, rec, b, x, rfl, hw, hx, ?_⟩
    unfold World.vstGet
    rw [vstGet_split r ht h hw]
    simp only [vstValue, hx]

omit [FloatEnv] in
theorem manyBuild_mem {α : Type} {b : α → Py Bytes} {l : List α} {bs : Bytes} (h : manyBuild b l = .ok bs) :
    ∀ x ∈ l, ∃ y, b x = .ok y := by
  induction l generalizing bs with
  | nil => simp
  | cons a l ih =>
    unfold manyBuild at h
    cases ha : b a with
    | error e => rw [ha] at h; cases h
    | ok x =>
      cases hl : manyBuild b l with
      | error e => rw [ha, hl] at h; cases h
      | ok y =>
        intro z hz
        rcases List.mem_cons.1 hz with rfl | hz
        · exact ⟨x, ha⟩
        · exact ih hl z hz

/-- C88 is false of assignments: after `midi.input = 5` (any of the numbers, any value) reading the property, or another one
of the same data, raises `TypeError`, and the project cannot be saved any more. -/
theorem C88_assign_refuted {w : World} {L : Nat → Prop} (r : WReach w L) {t : Nat} (ht : L t) (hst : Storable w) {ty : Int}
    {es : List (Int × VstData)} (h : HasSubs w t ty es) {key : String} {id : Int} (hk : (key, id) ∈ vstNumbers)
    (hne : ¬ Without es id) {x : LV} (hx : (∃ n, x = .int n) ∨ ∃ v, x = .bool v) :
    ∃ w', w.vstSet t id x = (w', .ok ()) ∧ (∀ key', w'.vstGet t id key' = .error .typeError) ∧
      ∀ file, saveBytes w'.project ≠ .ok file := by
  have hid : id = 1 ∨ id = 2 := by
    revert hk
    simp only [vstNumbers, List.mem_cons, Prod.mk.injEq, List.not_mem_nil, or_false]
    rintro (⟨rfl, rfl⟩ | ⟨rfl, rfl⟩ | ⟨rfl, rfl⟩ | ⟨rfl, rfl⟩) <;> decide
  obtain ⟨a, rec, b, rfl, hw, hv⟩ := subs_fields r ht hst h hid hne
  obtain ⟨w', u1, u2, u3⟩ := (vstUpdate_split r ht h hw fun _ => .ok (vstData x)).2 _ rfl
  have hd : vstData x = .lv x := by rcases hx with ⟨_, rfl⟩ | ⟨_, rfl⟩ <;> rfl
  rw [hd] at u2 u3
  refine ⟨w', u1, fun key' => ?_, fun file hs => ?_⟩
  · unfold World.vstGet
    rw [vstGet_split u2.reach ht u3 hw]
    rcases hx with ⟨_, rfl⟩ | ⟨_, rfl⟩ <;> rfl
  · obtain ⟨i, e, p1, p2, p3, p4⟩ := u2.project
    obtain ⟨bs, hb⟩ := saveBytes_mem hs { e with value := .vst ty (a ++ (id, .lv x) :: b) } (by
      rw [p4]
      dsimp only
      exact List.mem_set (List.getElem?_eq_some_iff.1 p1).1 _)
    have hval := hst.valid e (List.mem_of_getElem? p1)
    have hv' : e.value = .vst ty (a ++ (id, .fields rec) :: b) := by
      unfold HasSubs at h
      rw [h] at p3
      injection p3 with p3
      exact p3.symm
    rw [hv'] at hval
    have hk' : e.kind = .vst := by
      cases hk : e.kind <;> rw [hk] at hval <;> first | rfl | exact absurd hval (by simp [validValue])
    unfold Event.payload at hb
    dsimp only at hb
    rw [hk'] at hb
    simp only [Kind.build, vstBuild] at hb
    split at hb
    · cases hb
    split at hb
    · cases hb
    next y hy =>
    obtain ⟨z, hz⟩ := manyBuild_mem hy (id, .lv x) (by simp)
    unfold vstItemBuild prefixedBuild at hz
    split at hz
    · cases hz
    have : vstDataBuild id (.lv x) = .error .typeError := by
      rcases hid with rfl | rfl <;> rfl
    rw [this] at hz
    cases hz

end


/-! ## C89: flags -/

namespace Spec

/-- The flags of the plugin data: the number which the flag `f` is a bit of. -/
def FlagData (w : World) (t : Nat) (key : String) (n : Nat) : Prop :=
  ∃ ty a rec b, HasSubs w t ty (a ++ (2, .fields rec) :: b) ∧ Without a 2 ∧ Rec.lookup rec key = some (some (.int n))

/-- The booleans of a VST plugin: the number each is in, its mask, and whether a set bit means `False`. -/
def vstBooleans : List (String × String × Nat × Bool) := [
  ("midi.send_pb", "flags", 0x1, false), ("compatibility.fixed_buffers", "flags", 0x2, false),
  ("processing.notify_render", "flags", 0x4, false), ("processing.process_inactive", "flags", 0x8, false),
  ("midi.send_release", "flags", 0x20, true), ("automation.notify_changes", "flags", 0x40, true),
  ("compatibility.send_loop", "flags", 0x800, false), ("processing.multithreaded", "flags", 0x1000, false),
  ("processing.keep_state", "flags", 0x10000, true), ("midi.send_modx", "flags", 0x20000, false),
  ("processing.bridged", "flags", 0x40000, false), ("processing.external", "flags", 0x200000, false),
  ("ui.always_update", "flags", 0x800000, false), ("compatibility.reset_on_transport", "flags", 0x2000000, true),
  ("ui.dpi_aware", "flags", 0x4000000, false), ("ui.accept_drop", "flags", 0x10000000, false),
  ("processing.allow_sd", "flags", 0x20000000, false), ("ui.scale_editor", "flags", 0x40000000, false),
  ("compatibility.use_time_offset", "flags", 0x80000000, true),
  ("compatibility.process_maximum", "flags2", 0x1, false), ("compatibility.buffers_maxsize", "flags2", 0x2, false)]

/-- What the flag shows for this number. -/
def VstFlag.shown (f : VstFlag) (n : Nat) : Bool := n.testBit f.bit != f.inverted

end Spec

/-- The flags of the program are the documented booleans, with their masks. -/
theorem vst_flags : vstFlagProps.length = vstBooleans.length ∧
    ∀ f ∈ vstFlagProps, (f.attr, f.key, 2 ^ f.bit, f.inverted) ∈ vstBooleans := by decide +kernel

theorem flagIn_testBit (n b : Nat) : flagIn (n : Int) (2 ^ b) = n.testBit b := by
  unfold flagIn
  rw [Int.toNat_natCast, Bool.eq_iff_iff, beq_iff_eq]
  constructor
  · intro h
    have := congrArg (Nat.testBit · b) h
    simpa [Nat.testBit_and, Nat.testBit_two_pow_self] using this
  · intro h
    apply Nat.eq_of_testBit_eq
    intro i
    rw [Nat.testBit_and, Nat.testBit_two_pow]
    by_cases hi : b = i
    · subst hi; simp [h]
    · simp [hi]

theorem flagData_get {w : World} {L : Nat → Prop} (r : WReach w L) {t : Nat} (ht : L t) {n : Nat} (f : PyFLP.VstFlag)
    (h : FlagData w t f.key n) : w.getVstFlag t f = .ok (VstFlag.shown f n) := by
  obtain ⟨ty, a, rec, b, h1, h2, h3⟩ := h
  unfold World.getVstFlag World.vstFlagGet
  rw [vstGet_split r ht h1 h2]
  simp only [vstFlagValue, h3, flagWord, Except.map, flagIn_testBit]
  rfl

theorem structBuild_update [FloatEnv] {cx : Ctx} {fs : Fields} {r : Rec} {key : String} {old x : LV} {d' : Bytes}
    (hl : Rec.lookup r key = some (some old))
    (hx : ∀ f, (key, f) ∈ fs → ∀ b', fldBuild cx f (some x) = .ok b' →
      ∃ b, fldBuild cx f (some old) = .ok b ∧ b.length = b'.length)
    (h : structBuild cx fs (Rec.update r key (some x)) = .ok d') :
    ∃ d, structBuild cx fs r = .ok d ∧ d.length = d'.length := by
  induction fs generalizing r d' with
  | nil => cases r with
    | nil => cases hl
    | cons nv rec =>
      obtain ⟨n, v⟩ := nv
      unfold Rec.update at h
      split at h <;> cases h
  | cons nf fs ih =>
    obtain ⟨n, f⟩ := nf
    cases r with
    | nil => cases hl
    | cons nv rec =>
      obtain ⟨n', v⟩ := nv
      unfold Rec.lookup at hl
      unfold Rec.update at h
      by_cases hn : n' = key
      · rw [if_pos hn] at hl h
        injection hl with hl
        subst hl
        unfold structBuild at h ⊢
        by_cases hnn : n = n'
        · rw [if_pos hnn] at h ⊢
          cases hb : fldBuild cx f (some x) with
          | error e => rw [hb] at h; cases h
          | ok b' =>
            obtain ⟨b, e1, e2⟩ := hx f (by rw [hnn, hn]; simp) b' hb
            rw [hb] at h
            rw [e1]
            cases hs : structBuild cx fs rec with
            | error e => rw [hs] at h; cases h
            | ok bs =>
              rw [hs] at h
              cases h
              exact ⟨_, rfl, by simp [e2]⟩
        · rw [if_neg hnn] at h; cases h
      · rw [if_neg hn] at hl h
        unfold structBuild at h ⊢
        by_cases hnn : n = n'
        · rw [if_pos hnn] at h ⊢
          cases hb : fldBuild cx f v with
          | error e => rw [hb] at h; cases h
          | ok b =>
            rw [hb] at h
            cases hs : structBuild cx fs (Rec.update rec key (some x)) with
            | error e => rw [hs] at h; cases h
            | ok bs =>
              obtain ⟨d, e1, e2⟩ := ih hl (fun f hf => hx f (List.mem_cons_of_mem _ hf)) hs
              rw [hs] at h
              cases h
              exact ⟨b ++ d, by rw [e1], by simp [e2]⟩
        · rw [if_neg hnn] at h; cases h

theorem u32_fits {m : Nat} (hm : m < 2 ^ 32) : intFits 4 false m = true := by
  simp only [intFits, Bool.false_eq_true, if_false, decide_eq_true_eq]
  omega

theorem flags_fields [FloatEnv] {rec : Rec} (h : validVst (2, .fields rec)) : validFields ⟨0⟩ vstFlags rec := by
  obtain ⟨h1, h2, h3⟩ := h
  rcases h3 with h | h
  · exact absurd h.1 (by simp)
  · exact h.2

theorem flags_leaf {key : String} {f : Fld} (hk : key = "flags" ∨ key = "flags2") (hf : (key, f) ∈ vstFlags) :
    f = .opt u32 := by
  rcases hk with rfl | rfl <;> simpa [vstFlags] using hf

theorem flags_fits [FloatEnv] {rec : Rec} {key : String} {n : Nat} (hv : validFields ⟨0⟩ vstFlags rec)
    (hk : key = "flags" ∨ key = "flags2") (hl : Rec.lookup rec key = some (some (.int n))) :
    intFits 4 false n = true := by
  have := validFields_lookup (by decide) hv hl (f := .opt u32) (by rcases hk with rfl | rfl <;> simp [vstFlags])
  simpa only [Fld.leaf, u32, leafValid] using this

theorem fits_leaf [FloatEnv] {m : Nat} (hm : intFits 4 false m = true) : leafValid (Fld.opt u32).leaf (.int m) := by
  simpa only [Fld.leaf, u32, leafValid] using hm

theorem fits_length [FloatEnv] {k : Nat} {sg : Bool} {n m : Int} (hn : intFits k sg n = true) (hm : intFits k sg m = true)
    {b' : Bytes} (hb : fldBuild ⟨0⟩ (.opt (.int k sg)) (some (.int m)) = .ok b') :
    ∃ b, fldBuild ⟨0⟩ (.opt (.int k sg)) (some (.int n)) = .ok b ∧ b.length = b'.length := by
  obtain ⟨a, ha⟩ := intBuild_ok_iff.2 hn
  obtain ⟨a', ha'⟩ := intBuild_ok_iff.2 hm
  have : fldBuild ⟨0⟩ (.opt (.int k sg)) (some (.int m)) = .ok a' := by
    simp only [fldBuild, leafBuild, ha']
  rw [this] at hb
  cases hb
  refine ⟨a, by simp only [fldBuild, leafBuild, ha], ?_⟩
  rw [intBuild_length ha, intBuild_length ha']

/-- Flag data stays storable. -/
theorem flags_valid [FloatEnv] {rec : Rec} {key : String} {n m : Nat} (h : validVst (2, .fields rec))
    (hk : key = "flags" ∨ key = "flags2") (hl : Rec.lookup rec key = some (some (.int n)))
    (hm : intFits 4 false m = true) : validVst (2, .fields (Rec.update rec key (some (.int m)))) := by
  have hv := flags_fields h
  have hb : ∀ rec, vstDataBuild 2 (.fields rec) = structBuild ⟨0⟩ vstFlags rec := fun rec => by simp [vstDataBuild]
  refine ⟨⟨by simp, by simp⟩, fun d hd => ?_, .inr ⟨rfl, validFields_update hv hl fun f hf => ?_⟩⟩
  · obtain ⟨d', e1, e2⟩ := structBuild_update (cx := ⟨0⟩) (fs := vstFlags) hl (fun f hf b' hb => by
      rw [flags_leaf hk hf] at hb ⊢
      exact fits_length (flags_fits hv hk hl) hm hb) ((hb _).symm.trans hd)
    rw [← e2]
    exact h.2.1 d' ((hb _).trans e1)
  · rw [flags_leaf hk hf]
    exact ⟨fits_leaf hm, by simp [Fld.leaf, u32]⟩

theorem fits_or {n : Nat} (h : intFits 4 false n = true) : intFits 4 false ((n ||| 1 : Nat) : Int) = true := by
  refine u32_fits (Nat.or_lt_two_pow ?_ (by decide))
  simp only [intFits, Bool.false_eq_true, if_false, decide_eq_true_eq] at h
  omega

theorem flagData_set [FloatEnv] {w : World} {L : Nat → Prop} (r : WReach w L) {t : Nat} (ht : L t) {n : Nat}
    {f : PyFLP.VstFlag} (hf : f ∈ vstFlagProps) (h : FlagData w t f.key n) (v : Bool) :
    ∃ w', w.setVstFlag t f v = (w', .ok ()) ∧ WReach w' L ∧ ChangedOnly w w' t [213] ∧
      FlagData w' t f.key (if v != f.inverted then n ||| 1 else n) ∧
      (∀ key' n', key' ≠ f.key → FlagData w t key' n' → FlagData w' t key' n') ∧
      (∀ id key, id ≠ 2 → w'.vstGet t id key = w.vstGet t id key) ∧ (Storable w → Storable w') := by
  obtain ⟨ty, a, rec, b, h1, h2, h3⟩ := h
  obtain ⟨k1, -, k3⟩ := lookup_update h3 (some (.int (((if v != f.inverted then n ||| 1 else n) : Nat) : Int)))
  have hup : vstFlagUpdate f.key (v != f.inverted) (.fields rec) = .ok (.fields (Rec.update rec f.key
      (some (.int (((if v != f.inverted then n ||| 1 else n) : Nat) : Int))))) := by
    simp only [vstFlagUpdate, h3, flagWord, Except.map]
    cases v != f.inverted <;> simp [flagOr]
  obtain ⟨w', u1, u2, u3⟩ := (vstUpdate_split r ht h1 h2 (vstFlagUpdate f.key (v != f.inverted))).2 _ hup
  refine ⟨w', u1, u2.reach, u2.changedOnly (by simp), ⟨ty, a, _, b, u3, h2, k1⟩, ?_, fun id key hne => ?_,
    fun hst => ?_⟩
  · rintro key' n' hne ⟨ty', a', rec', b', g1, g2, g3⟩
    unfold HasSubs at h1 g1
    rw [h1] at g1
    injection g1 with g1
    injection g1 with g0 g1
    have : rec' = rec := by
      have e1 := sub_split (b := b) (d := .fields rec) h2
      have e2 := sub_split (b := b') (d := .fields rec') g2
      rw [g1, e2] at e1
      injection e1 with e1
      injection e1 with _ e1
      injection e1
    subst this
    exact ⟨ty, a, _, b, u3, h2, by rw [k3 key' hne]; exact g3⟩
  · unfold World.vstGet
    rw [vstFind_other r u2.reach ht h1 u3 hne]
  · have hkey : f.key = "flags" ∨ f.key = "flags2" := by
      have : ∀ f ∈ vstFlagProps, f.key = "flags" ∨ f.key = "flags2" := by decide
      exact this f hf
    have hv := (subs_valid r ht hst h1).2 (2, .fields rec) (by simp)
    refine subs_storable h1 u2 hst (flags_valid hv hkey h3 ?_)
    have hn := flags_fits (flags_fields hv) hkey h3
    split
    · exact fits_or hn
    · exact hn

/-- C89, reading: a flag is the bit of its number, inverted or not; a missing number raises `TypeError`. -/
theorem C89_get_partial [FloatEnv] {w : World} {L : Nat → Prop} (r : WReach w L) {t : Nat} (ht : L t) (hst : Storable w)
    {ty : Int} {es : List (Int × VstData)} (h : HasSubs w t ty es) {f : PyFLP.VstFlag} (hf : f ∈ vstFlagProps) :
    (Without es 2 ∧ w.getVstFlag t f = .error .attributeError) ∨
    (∃ a rec b, es = a ++ (2, .fields rec) :: b ∧ Without a 2 ∧ Rec.lookup rec f.key = some none ∧
      w.getVstFlag t f = .error .typeError) ∨
    ∃ n, FlagData w t f.key n ∧ w.getVstFlag t f = .ok (VstFlag.shown f n) := by
  by_cases hne : Without es 2
  · exact .inl ⟨hne, by unfold World.getVstFlag World.vstFlagGet; rw [vstGet_without r ht h hne]⟩
  · right
    obtain ⟨a, rec, b, rfl, hw, hv⟩ := subs_fields r ht hst h (.inr rfl) hne
    have hv : validFields ⟨0⟩ vstFlags rec := hv
    have hkey : f.key = "flags" ∨ f.key = "flags2" := by
      have : ∀ f ∈ vstFlagProps, f.key = "flags" ∨ f.key = "flags2" := by decide
      exact this f hf
    have hty := validFields_typed (by decide) hv
    obtain ⟨x, hx⟩ := typed_field hty (key := f.key) (by rcases hkey with h | h <;> rw [h] <;> decide)
    cases x with
    | none =>
      left
      refine ⟨a, rec, b, rfl, hw, hx, ?_⟩
      unfold World.getVstFlag World.vstFlagGet
      rw [vstGet_split r ht h hw]
      simp only [vstFlagValue, hx]
      rfl
    | some x =>
      right
      have : LeafTyped u32 x := by
        refine hty.values f.key (.opt u32) x ?_ hx
        rcases hkey with h | h <;> rw [h] <;> simp [vstFlags]
      obtain ⟨n, rfl⟩ : ∃ n : Nat, x = .int n := by
        cases x <;> simp [LeafTyped, u32] at this
        next i => exact ⟨i.toNat, by rw [Int.toNat_of_nonneg this]⟩
      have hd : FlagData w t f.key n := ⟨ty, a, rec, b, h, hw, hx⟩
      exact ⟨n, hd, flagData_get r ht f hd⟩

/-- C89 is false of assignments: a flag other than bit 0 keeps its value, whatever is assigned; instead bit 0 is set. -/
theorem C89_set_refuted [FloatEnv] {w : World} {L : Nat → Prop} (r : WReach w L) {t : Nat} (ht : L t) {n : Nat}
    {f : PyFLP.VstFlag} (hf : f ∈ vstFlagProps) (h : FlagData w t f.key n) (h0 : f.bit ≠ 0) (v : Bool) :
    ∃ w', w.setVstFlag t f v = (w', .ok ()) ∧ w'.getVstFlag t f = w.getVstFlag t f ∧
      (v ≠ f.inverted → ∀ g ∈ vstFlagProps, g.key = f.key → g.bit = 0 → w'.getVstFlag t g = .ok true) := by
  obtain ⟨w', u1, u2, -, u4, -⟩ := flagData_set r ht hf h v
  refine ⟨w', u1, ?_, fun hv g hg hk hb => ?_⟩
  · rw [flagData_get u2 ht f u4, flagData_get r ht f h]
    unfold VstFlag.shown
    split
    · rw [Nat.testBit_or]
      have : Nat.testBit 1 f.bit = false := by
        show Nat.testBit (2 ^ 0) f.bit = false
        rw [Nat.testBit_two_pow]
        simp [Ne.symm h0]
      rw [this, Bool.or_false]
    · rfl
  · have hi : g.inverted = false := by
      have : ∀ g ∈ vstFlagProps, g.bit = 0 → g.inverted = false := by decide
      exact this g hg hb
    rw [flagData_get u2 ht g (hk ▸ u4)]
    unfold VstFlag.shown
    rw [if_pos (by simpa using hv), hi, hb, Nat.testBit_or]
    simp


/-- C89, assigning, as far as it works: `send_pb` and `process_maximum` (bit 0) can be set.  All other flags, all other
sub-events and events stay, and the project can be saved.  Missing: setting any other flag, and clearing any flag. -/
theorem C89_set_partial [FloatEnv] {w : World} {L : Nat → Prop} (r : WReach w L) {t : Nat} (ht : L t) {n : Nat}
    {f : PyFLP.VstFlag} (hf : f ∈ vstFlagProps) (h : FlagData w t f.key n) (h0 : f.bit = 0) :
    ∃ w', w.setVstFlag t f true = (w', .ok ()) ∧ w'.getVstFlag t f = .ok true ∧ WReach w' L ∧ ChangedOnly w w' t [213] ∧
      (∀ g ∈ vstFlagProps, g ≠ f → ∀ m, FlagData w t g.key m → w'.getVstFlag t g = w.getVstFlag t g) ∧
      (∀ id key, id ≠ 2 → w'.vstGet t id key = w.vstGet t id key) ∧ (Storable w → Storable w') := by
  have hi : f.inverted = false := by
    have : ∀ g ∈ vstFlagProps, g.bit = 0 → g.inverted = false := by decide
    exact this f hf h0
  obtain ⟨w', u1, u2, u3, u4, u5, u6⟩ := flagData_set r ht hf h true
  refine ⟨w', u1, ?_, u2, u3, fun g hg hne m hm => ?_, u6⟩
  · rw [flagData_get u2 ht f u4]
    unfold VstFlag.shown
    rw [hi, if_pos (by decide), h0, Nat.testBit_or]
    simp
  · by_cases hk : g.key = f.key
    · have hb : g.bit ≠ 0 := by
        intro hb
        have : ∀ f ∈ vstFlagProps, ∀ g ∈ vstFlagProps, f.bit = 0 → g.bit = 0 → g.key = f.key → g = f := by decide
        exact hne (this f hf g hg h0 hb hk)
      rw [flagData_get u2 ht g (hk ▸ u4), flagData_get r ht g (n := n) (hk ▸ h)]
      unfold VstFlag.shown
      rw [hi, if_pos (by decide), Nat.testBit_or]
      have : Nat.testBit 1 g.bit = false := by
        show Nat.testBit (2 ^ 0) g.bit = false
        rw [Nat.testBit_two_pow]
        simp [Ne.symm hb]
      rw [this, Bool.or_false]
    · rw [flagData_get u2 ht g (u5 _ _ hk hm), flagData_get r ht g hm]

namespace Demo

/-- A channel with a VST plugin. -/
def vst : Project := ⟨0, 1, 96, [⟨199, .ascii, .str (PStr.lit "20.8.3"), 7⟩, ⟨64, .u16, .lv (.int 0), 2⟩,
  ⟨201, .unicode, .str (PStr.lit "Fruity Wrapper"), 30⟩,
  ⟨213, .vst, .vst 10 [(1, .fields [("input", some (.int 3)), ("output", some (.int (-1))), ("pb_range", some (.int 12)),
      ("_extra", some (.bytes [0]))]),
    (2, .fields [("_u1", some (.bytes [0, 0, 0, 0, 0, 0, 0, 0, 0])), ("flags", some (.int 6)), ("flags2", some (.int 0)),
      ("_u2", some (.bytes [0, 0, 0, 0, 0])), ("fast_idle", some (.bool false)), ("_extra", some (.bytes []))]),
    (54, .str (PStr.lit "Surge XT")), (53, .raw [1, 2, 3])], 90⟩]⟩

theorem vst_storable [FloatEnv] : Storable (World.ofProject vst) := by
  refine ⟨by decide, by decide, by rw [ofProject_project]; exact Demo.wellTyped_of (by decide +kernel), ?_⟩
  rw [ofProject_project]
  intro e he
  simp only [vst, List.mem_cons, List.not_mem_nil, or_false] at he
  rcases he with rfl | rfl | rfl | rfl
  · exact ⟨by decide, by decide⟩
  · exact ⟨_, rfl, rfl⟩
  · exact valid_text (.inr rfl) (by unfold Storable1 isScalar; decide +kernel)
  · refine ⟨by decide, fun x hx => ?_⟩
    simp only [List.mem_cons, List.not_mem_nil, or_false] at hx
    rcases hx with rfl | rfl | rfl | rfl
    · refine ⟨by decide, fun d hd => ?_, .inl ⟨rfl, ?_⟩⟩
      · cases hd
        decide
      · simp [validFields, vstMidi, leafValid, intFits, i32, u32]
    · refine ⟨by decide, fun d hd => ?_, .inr ⟨rfl, ?_⟩⟩
      · cases hd
        decide
      · simp [validFields, vstFlags, leafValid, intFits, u32]
    · refine ⟨by decide, fun d hd => ?_, by decide, by unfold isScalar; decide⟩
      cases hd
      decide
    · refine ⟨by decide, fun d hd => ?_, by decide, by decide, by decide⟩
      cases hd
      decide

end Demo

/-- The hypotheses of the C87, C88 and C89 theorems can be met. -/
example [FloatEnv] : WReach (World.ofProject Demo.vst) (· = 0) ∧ Storable (World.ofProject Demo.vst) ∧
    (∃ ty a b, HasSubs (World.ofProject Demo.vst) 0 ty (a ++ (54, .str (PStr.lit "Surge XT")) :: b) ∧ Without a 54) ∧
    (World.ofProject Demo.vst).vstGet 0 54 "name" = .ok (some (.str (PStr.lit "Surge XT"))) ∧
    (World.ofProject Demo.vst).vstGet 0 1 "input" = .ok (some (.int 3)) ∧
    FlagData (World.ofProject Demo.vst) 0 "flags" 6 ∧
    (World.ofProject Demo.vst).getVstFlag 0 ⟨"processing.notify_render", "flags", 2, false⟩ = .ok true ∧
    VstText 54 (.str (PStr.lit "Vital")) := by
  refine ⟨.parsed _, Demo.vst_storable, ⟨10, [_, _], [(53, .raw [1, 2, 3])], rfl, ?_⟩, rfl, rfl, ⟨10, [_], _, _, rfl, ?_, rfl⟩, rfl,
    .text "name" (by decide) _ (by unfold isScalar; decide) (by decide)⟩
  · intro x hx
    simp only [List.mem_cons, List.not_mem_nil, or_false] at hx
    rcases hx with rfl | rfl <;> decide
  · intro x hx
    simp only [List.mem_cons, List.not_mem_nil, or_false] at hx
    subst hx
    decide

end PyFLP
