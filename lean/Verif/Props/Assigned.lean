import Verif.ChannelProps
import Verif.Props.PropSaved
import Verif.Props.Rack
/-!
# Assigning through the first event of a kind
-/

namespace PyFLP

open Spec Heap

namespace Spec

/-- `ref` is the first event object with its id in the tree `t`. -/
def IsFirst (w : World) (t ref : Nat) : Prop :=
  ∃ pre post, w.refs t = pre ++ ref :: post ∧ ∀ x ∈ pre, (w.ev x).id ≠ (w.ev ref).id

/-- From `w` to `w'` the first event with this id of the model `t` has got the value `v`; nothing else has changed. -/
structure Assigned (w w' : World) (L : Nat → Prop) (t id : Nat) (v : Value) : Prop where
  reach : WReach w' L
  only : ∃ ref, IsFirst w t ref ∧ (w.ev ref).id = id ∧ w' = w.setEv ref { w.ev ref with value := v }
  model : w'.events t = setFirst (w.events t) id v
  project : ∃ i e, w.project.events[i]? = some e ∧ e.id = id ∧ valueOf (w.events t) id = some e.value ∧
    w'.project = { w.project with events := w.project.events.set i { e with value := v } }

/-- Only values of first events with one of these ids in the model `t` have changed. -/
structure ChangedOnly (w w' : World) (t : Nat) (ids : List Nat) : Prop where
  header : w'.format = w.format ∧ w'.channelCount = w.channelCount ∧ w'.ppq = w.ppq
  heap : w'.heap = w.heap
  store : ∀ ref : Nat, ∃ v, w'.ev ref = { w.ev ref with value := v } ∧
    (v = (w.ev ref).value ∨ (IsFirst w t ref ∧ (w.ev ref).id ∈ ids))

end Spec

theorem Spec.Assigned.heap {w w' : World} {L : Nat → Prop} {t id : Nat} {v : Value}
    (h : Assigned w w' L t id v) : w'.heap = w.heap := by
  obtain ⟨ref, -, -, rfl⟩ := h.only
  rfl

theorem Spec.Assigned.changedOnly {w w' : World} {L : Nat → Prop} {t id : Nat} {v : Value}
    (h : Assigned w w' L t id v) {ids : List Nat} (hid : id ∈ ids) : ChangedOnly w w' t ids := by
  obtain ⟨ref, h1, h2, rfl⟩ := h.only
  refine ⟨⟨rfl, rfl, rfl⟩, rfl, fun ref' => ?_⟩
  rw [World.ev_setEv]
  split
  · next h => rw [h.1]; exact ⟨v, rfl, .inr ⟨h1, h2 ▸ hid⟩⟩
  · exact ⟨_, rfl, .inl rfl⟩

theorem Spec.ChangedOnly.refl (w : World) (t : Nat) (ids : List Nat) : ChangedOnly w w t ids :=
  ⟨⟨rfl, rfl, rfl⟩, rfl, fun _ => ⟨_, rfl, .inl rfl⟩⟩

theorem Spec.ChangedOnly.id {w w' : World} {t : Nat} {ids : List Nat} (h : ChangedOnly w w' t ids) (ref : Nat) :
    (w'.ev ref).id = (w.ev ref).id := by
  obtain ⟨v, h1, -⟩ := h.store ref
  rw [h1]

theorem Spec.ChangedOnly.mono {w w' : World} {t : Nat} {ids ids' : List Nat} (h : ChangedOnly w w' t ids)
    (hs : ∀ i ∈ ids, i ∈ ids') : ChangedOnly w w' t ids' := by
  refine ⟨h.header, h.heap, fun ref => ?_⟩
  obtain ⟨v, h1, h2⟩ := h.store ref
  exact ⟨v, h1, h2.imp_right fun x => ⟨x.1, hs _ x.2⟩⟩

theorem Spec.ChangedOnly.trans {w w' w'' : World} {t : Nat} {ids : List Nat} (h : ChangedOnly w w' t ids)
    (h' : ChangedOnly w' w'' t ids) : ChangedOnly w w'' t ids := by
  refine ⟨⟨h'.header.1.trans h.header.1, h'.header.2.1.trans h.header.2.1, h'.header.2.2.trans h.header.2.2⟩,
    h'.heap.trans h.heap, fun ref => ?_⟩
  obtain ⟨v, v1, v2⟩ := h.store ref
  obtain ⟨u, u1, u2⟩ := h'.store ref
  refine ⟨u, by rw [u1, v1], ?_⟩
  rcases u2 with u2 | ⟨⟨pre, post, u3, u4⟩, u5⟩
  · rw [v1] at u2
    rcases v2 with v2 | v2
    · exact .inl (u2.trans v2)
    · exact .inr v2
  · rw [h.id] at u5
    refine .inr ⟨⟨pre, post, ?_, fun x hx => ?_⟩, u5⟩
    · unfold World.refs at u3 ⊢
      rw [h.heap] at u3
      exact u3
    · have := u4 x hx
      rw [h.id, h.id] at this
      exact this

theorem World.firstVal_eq {w : World} {L : Nat → Prop} (r : WReach w L) {t : Nat} (ht : L t) {id : Nat} {v : Value}
    (h : valueOf (w.events t) id = some v) : w.firstVal t id = .ok v := by
  unfold World.firstVal
  rcases World.first_value r ht id with ⟨ref, f1, _, f2, _⟩ | ⟨_, f2⟩
  · rw [h] at f2
    rw [f1]
    exact congrArg _ (Option.some.inj f2).symm
  · rw [h] at f2; cases f2

theorem World.firstVal_none {w : World} {L : Nat → Prop} (r : WReach w L) {t : Nat} (ht : L t) {id : Nat}
    (h : valueOf (w.events t) id = none) : w.firstVal t id = .error .keyError := by
  unfold World.firstVal
  rcases World.first_value r ht id with ⟨ref, f1, _, f2, _⟩ | ⟨f1, f2⟩
  · rw [h] at f2; cases f2
  · rw [f1]

theorem assigned_first {w : World} {L : Nat → Prop} (r : WReach w L) {t : Nat} (ht : L t) {id ref : Nat} (v : Value)
    (h : w.heap.first t id = .ok ref) (hid : (w.ev ref).id = id)
    (hval : valueOf (w.events t) id = some (w.ev ref).value) :
    Assigned w (w.setEv ref { w.ev ref with value := v }) L t id v := by
  obtain ⟨g1, -, g3, i, g4, g5⟩ := first_assign r ht v h
  have hfirst : IsFirst w t ref := by
    rcases first_spec w.heap t id with ⟨pre, post, ref', h1, h2, h3⟩ | ⟨h1, h2⟩
    · rw [h1] at h
      cases h
      refine ⟨pre.map Prod.fst, post.map Prod.fst, by rw [World.refs_eq, h2]; simp, fun x hx => ?_⟩
      obtain ⟨y, hy, rfl⟩ := List.mem_map.1 hx
      rw [hid, (events_shown r ht y (by rw [h2]; simp [hy])).2]
      exact h3 y hy
    · rw [h1] at h; cases h
  exact ⟨g3, ⟨ref, hfirst, hid, rfl⟩, g1, i, _, g4, hid, hval, g5⟩

theorem setFirstVal_spec {w : World} {L : Nat → Prop} (r : WReach w L) {t : Nat} (ht : L t) {id : Nat}
    (h : (valueOf (w.events t) id).isSome) (v : Value) :
    ∃ w', w.setFirstVal t id v = (w', .ok ()) ∧ Assigned w w' L t id v := by
  unfold World.setFirstVal
  rcases World.first_value r ht id with ⟨ref, f1, _, f2, f3⟩ | ⟨_, f2⟩
  · rw [f1]
    exact ⟨_, rfl, assigned_first r ht v f1 f3 f2⟩
  · rw [f2] at h; cases h

theorem setFirstVal_none {w : World} {L : Nat → Prop} (r : WReach w L) {t : Nat} (ht : L t) {id : Nat}
    (h : valueOf (w.events t) id = none) (v : Value) : w.setFirstVal t id v = (w, .error .keyError) := by
  unfold World.setFirstVal
  rcases World.first_value r ht id with ⟨ref, f1, _, f2, f3⟩ | ⟨f1, f2⟩
  · rw [h] at f2; cases f2
  · rw [f1]

theorem firstGet_eq {w : World} {L : Nat → Prop} (r : WReach w L) {t : Nat} (ht : L t) {id : Nat} {rec : Rec}
    (h : valueOf (w.events t) id = some (.fields rec)) {key : String} {f : Option LV} (hf : Rec.lookup rec key = some f) :
    w.firstGet t id key = .ok (f.map Value.lv) := by
  unfold World.firstGet
  rcases World.first_value r ht id with ⟨ref, f1, _, f2, _⟩ | ⟨_, f2⟩
  · rw [h] at f2
    rw [f1]
    injection f2 with f2
    simp only [structGet, ← f2, hf, Except.map]
  · rw [h] at f2; cases f2

theorem firstSet_spec {w : World} {L : Nat → Prop} (r : WReach w L) {t : Nat} (ht : L t) {id : Nat} {rec : Rec}
    (h : valueOf (w.events t) id = some (.fields rec)) {key : String} {old : LV} (hf : Rec.lookup rec key = some (some old))
    (v : LV) :
    ∃ w', w.firstSet t id key v = (w', .ok ()) ∧ Assigned w w' L t id (.fields (Rec.update rec key (some v))) := by
  unfold World.firstSet
  rcases World.first_value r ht id with ⟨ref, f1, _, f2, f3⟩ | ⟨_, f2⟩
  · have f4 := f2
    rw [h] at f2
    rw [f1]
    injection f2 with f2
    have : structSet (w.ev ref) key (some v) = .ok { w.ev ref with value := .fields (Rec.update rec key (some v)) } := by
      simp only [structSet, ← f2, hf]
    dsimp only
    rw [this]
    exact ⟨_, rfl, assigned_first r ht _ f1 f3 f4⟩
  · rw [h] at f2; cases f2

theorem firstSet_none {w : World} {L : Nat → Prop} (r : WReach w L) {t : Nat} (ht : L t) {id : Nat} {rec : Rec}
    (h : valueOf (w.events t) id = some (.fields rec)) {key : String} (hf : Rec.lookup rec key = some none) (v : LV) :
    w.firstSet t id key v = (w, .error .propertyCannotBeSet) := by
  unfold World.firstSet
  rcases World.first_value r ht id with ⟨ref, f1, _, f2, f3⟩ | ⟨_, f2⟩
  · rw [h] at f2
    rw [f1]
    injection f2 with f2
    have : structSet (w.ev ref) key (some v) = .error .propertyCannotBeSet := by
      simp only [structSet, ← f2, hf]
    dsimp only
    rw [this]
  · rw [h] at f2; cases f2

/-! ### Typed and storable projects -/

/-- The value of the first event with an id has the type of its class. -/
theorem typed_value {evs : List Event} (hty : Typed evs) {id : Nat} {k : Kind} (hk : enumType enums id = some k)
    {v : Value} (h : valueOf evs id = some v) : ValueTyped k v := by
  obtain ⟨e, he, rfl, rfl⟩ := valueOf_mem h
  have := hty e he
  rw [← this.1 k hk]
  exact this.2

theorem assigned_typed {w w' : World} {L : Nat → Prop} {t id : Nat} {v : Value} (h : Assigned w w' L t id v)
    (hty : Typed w.project.events) {k : Kind} (hk : enumType enums id = some k) (hv : ValueTyped k v) :
    Typed w'.project.events := by
  obtain ⟨i, e, h1, h2, -, h3⟩ := h.project
  rw [h3]
  intro y hy
  rcases List.mem_or_eq_of_mem_set hy with hy | rfl
  · exact hty y hy
  · have := (hty e (List.mem_of_getElem? h1)).1
    refine ⟨this, ?_⟩
    dsimp only
    rw [this k (h2 ▸ hk)]
    exact hv

/-- Projects whose values can be stored. -/
structure Spec.Storable [FloatEnv] (w : World) : Prop where
  format : w.format ∈ formats
  ppq : w.ppq ∈ ppqs
  typed : WellTyped w.project.events
  valid : ∀ e ∈ w.project.events, validValue e.kind e.len e.value

/-- The file is read as the events of the project. -/
def Spec.ReadBack [FloatEnv] (w : World) (file : Bytes) : Prop :=
  ∃ q, parseFile file = .ok q ∧ q.events.map observe = w.project.events.map observe

section
variable [FloatEnv]

theorem storable_saved {w : World} (h : Storable w) {file : Bytes} (hs : saveBytes w.project = .ok file) :
    ReadBack w file := by
  obtain ⟨q, q1, -, -, -, q2, -⟩ := C04_save_parse w.project file h.format h.ppq h.typed h.valid hs
  exact ⟨q, q1, q2⟩

theorem assigned_storable {w w' : World} {L : Nat → Prop} {t id : Nat} {v : Value} (h : Assigned w w' L t id v)
    (hst : Storable w) (h199 : id ≠ 199) (h201 : id ≠ 201)
    (hv : ∀ e ∈ w.project.events, e.id = id → valueOf (w.events t) id = some e.value → validValue e.kind e.len v) :
    Storable w' := by
  obtain ⟨j, e, j1, j3, j4, j2⟩ := h.project
  have hjl := List.getElem?_eq_some_iff.1 j1
  have hsplit : w.project.events = w.project.events.take j ++ e :: w.project.events.drop (j + 1) := by
    have := List.take_append_drop j w.project.events
    rw [List.drop_eq_getElem_cons hjl.1, hjl.2] at this
    exact this.symm
  have hsplit' : w'.project.events = w.project.events.take j ++ { e with value := v } :: w.project.events.drop (j + 1) := by
    rw [j2]
    dsimp only
    rw [List.set_eq_take_append_cons_drop, if_pos hjl.1]
  have hhdr : w'.format = w.format ∧ w'.ppq = w.ppq := ⟨congrArg Project.format j2, congrArg Project.ppq j2⟩
  refine ⟨by rw [hhdr.1]; exact hst.format, by rw [hhdr.2]; exact hst.ppq, ?_, ?_⟩
  · rw [hsplit']
    refine wellTyped_replace (e := e) (hsplit ▸ hst.typed) rfl rfl (fun h => absurd (j3.symm.trans h) h199) ?_
      (fun h => absurd (j3.symm.trans h) h201)
    rw [textKind_append, textKind_append]
    have : e.id ≠ 199 := fun h => h199 (j3.symm.trans h)
    simp [this]
  · intro y hy
    rw [j2] at hy
    rcases List.mem_or_eq_of_mem_set hy with hy | rfl
    · exact hst.valid y hy
    · exact hv e (List.mem_of_getElem? j1) j3 j4

theorem storable_typed {w : World} (h : Storable w) : Typed w.project.events := wellTyped_typed h.typed h.valid

theorem storable_kind {w : World} (h : Storable w) {e : Event} (he : e ∈ w.project.events) {k : Kind}
    (hk : enumType enums e.id = some k) : e.kind = k := (storable_typed h e he).1 k hk

end

end PyFLP
