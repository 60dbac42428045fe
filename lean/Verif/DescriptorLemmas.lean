import Verif.Descriptors
/-!
# Lemmas about property descriptors
-/

namespace PyFLP

open Spec Heap

namespace Spec

/-- The event a property stands for: of the ids of the property take the first one
some event of the model has, and the first event with that id (a property without ids
needs a model with a single event).  `k` is its position among the events of the model. -/
def Target (evs : List Event) (ids : List Nat) (k : Nat) (e : Event) : Prop :=
  (ids = [] ∧ evs = [e] ∧ k = 0) ∨ ∃ ids₁ ids₂ pre post, ids = ids₁ ++ e.id :: ids₂ ∧ (∀ i ∈ ids₁, ∀ x ∈ evs, x.id ≠ i) ∧
    evs = pre ++ e :: post ∧ (∀ x ∈ pre, x.id ≠ e.id) ∧ k = pre.length

end Spec

theorem target_unique {evs : List Event} {ids : List Nat} {k k' : Nat} {e e' : Event}
    (h : Target evs ids k e) (h' : Target evs ids k' e') : k = k' ∧ e = e' := by
  rcases h with ⟨rfl, rfl, rfl⟩ | ⟨a, b, p, q, h1, h2, h3, h4, rfl⟩
  · rcases h' with ⟨_, h1, rfl⟩ | ⟨a', b', p', q', h1', _⟩
    · exact ⟨rfl, (List.cons.inj h1).1⟩
    · simp at h1'
  rcases h' with ⟨h1', _, _⟩ | ⟨a', b', p', q', h1', h2', h3', h4', rfl⟩
  · rw [h1'] at h1; simp at h1
  have hid : e.id = e'.id := by
    have he : e ∈ evs := by rw [h3]; simp
    have he' : e' ∈ evs := by rw [h3']; simp
    rcases List.append_eq_append_iff.1 (h1.symm.trans h1') with ⟨c, c1, c2⟩ | ⟨c, c1, c2⟩
    · cases c with
      | nil => simpa using (List.cons.inj c2).1
      | cons x c =>
        simp only [List.cons_append, List.cons.injEq] at c2
        exact absurd rfl (h2' e.id (by rw [c1, ← c2.1]; simp) e he)
    · cases c with
      | nil => simpa using (List.cons.inj c2).1.symm
      | cons x c =>
        simp only [List.cons_append, List.cons.injEq] at c2
        exact absurd rfl (h2 e'.id (by rw [c1, ← c2.1]; simp) e' he')
  rcases List.append_eq_append_iff.1 (h3.symm.trans h3') with ⟨c, c1, c2⟩ | ⟨c, c1, c2⟩
  · cases c with
    | nil => simp only [List.append_nil, List.nil_append, List.cons.injEq] at c1 c2; exact ⟨by rw [c1], c2.1⟩
    | cons x c =>
      simp only [List.cons_append, List.cons.injEq] at c2
      exact absurd hid (h4' e (by rw [c1, c2.1]; simp))
  · cases c with
    | nil => simp only [List.append_nil, List.nil_append, List.cons.injEq] at c1 c2; exact ⟨by rw [c1], c2.1.symm⟩
    | cons x c =>
      simp only [List.cons_append, List.cons.injEq] at c2
      exact absurd hid.symm (h4 e' (by rw [c1, c2.1]; simp))

theorem contains_iff (w : World) (t id : Nat) :
    w.contains t id = true ↔ ∃ x ∈ shown w.heap t, x.2 = id := by
  unfold World.contains shown
  simp only [List.any_eq_true, List.mem_map, beq_iff_eq]
  constructor
  · rintro ⟨a, ha, h⟩; exact ⟨_, ⟨a, ha, rfl⟩, h⟩
  · rintro ⟨_, ⟨a, ha, rfl⟩, h⟩; exact ⟨a, ha, h⟩

theorem first_spec (h : Heap) (t id : Nat) :
    (∃ pre post ref, h.first t id = .ok ref ∧ shown h t = pre ++ (ref, id) :: post ∧ ∀ x ∈ pre, x.2 ≠ id) ∨
    (h.first t id = .error .keyError ∧ ∀ x ∈ shown h t, x.2 ≠ id) := by
  unfold Heap.first
  cases hf : (h.lst t).find? fun a => decide (h.idOf a = id) with
  | some a =>
    left
    obtain ⟨ha, pre, post, h1, h2⟩ := List.find?_eq_some_iff_append.1 hf
    have hid : (h.cell a).id = id := of_decide_eq_true ha
    refine ⟨pre.map fun a => ((h.cell a).ref, (h.cell a).id), post.map fun a => ((h.cell a).ref, (h.cell a).id),
      (h.cell a).ref, rfl, ?_, ?_⟩
    · unfold shown
      rw [h1, List.map_append, List.map_cons, hid]
    · intro x hx
      obtain ⟨b, hb, rfl⟩ := List.mem_map.1 hx
      have := h2 b hb
      exact fun hc => by simp [show h.idOf b = id from hc] at this
  | none =>
    right
    refine ⟨rfl, fun x hx => ?_⟩
    obtain ⟨b, hb, rfl⟩ := List.mem_map.1 hx
    have := List.find?_eq_none.1 hf b hb
    exact fun hc => by simp [show h.idOf b = id from hc] at this

/-- Events of a model as event objects. -/
theorem events_shown {w : World} {L : Nat → Prop} (r : WReach w L) {t : Nat} (ht : L t) :
    ∀ x ∈ shown w.heap t, x.1 < w.store.length ∧ (w.ev x.1).id = x.2 := fun x hx =>
  (wreach_inv r).2 x ((wreach_sub r ht).1.mem hx)

theorem World.events_eq (w : World) (t : Nat) : w.events t = (shown w.heap t).map fun x => w.ev x.1 := by
  unfold World.events
  rw [World.refs_eq, List.map_map]
  rfl

theorem mem_events {w : World} {L : Nat → Prop} (r : WReach w L) {t : Nat} (ht : L t) (id : Nat) :
    (∃ x ∈ shown w.heap t, x.2 = id) ↔ ∃ e ∈ w.events t, e.id = id := by
  rw [World.events_eq]
  constructor
  · rintro ⟨x, hx, rfl⟩
    exact ⟨_, List.mem_map.2 ⟨x, hx, rfl⟩, (events_shown r ht x hx).2⟩
  · rintro ⟨e, he, rfl⟩
    obtain ⟨x, hx, rfl⟩ := List.mem_map.1 he
    exact ⟨x, hx, (events_shown r ht x hx).2.symm⟩

/-- What `_get_event` finds. -/
theorem firstOf_spec {w : World} {L : Nat → Prop} (r : WReach w L) {t : Nat} (ht : L t) (ids : List Nat) :
    (∃ k ref, w.firstOf t ids = .ok (some ref) ∧ (w.refs t)[k]? = some ref ∧ ref < w.store.length ∧
      Target (w.events t) ids k (w.ev ref)) ∨
    (w.firstOf t ids = .ok none ∧ ∀ e ∈ w.events t, e.id ∉ ids) := by
  induction ids with
  | nil => right; exact ⟨rfl, by simp⟩
  | cons id ids ih =>
    unfold World.firstOf
    by_cases hc : w.contains t id = true
    · rw [if_pos hc]
      left
      obtain ⟨x, hx, hxi⟩ := (contains_iff w t id).1 hc
      rcases first_spec w.heap t id with ⟨pre, post, ref, h1, h2, h3⟩ | ⟨h1, h2⟩
      · have hmem : (ref, id) ∈ shown w.heap t := by rw [h2]; simp
        obtain ⟨e1, e2⟩ := events_shown r ht _ hmem
        dsimp only at e1 e2
        refine ⟨pre.length, ref, by rw [h1]; rfl, ?_, e1, ?_⟩
        · rw [World.refs_eq, h2]
          simp
        · refine .inr ⟨[], ids, pre.map fun x => w.ev x.1, post.map fun x => w.ev x.1, ?_, by simp, ?_, ?_, by simp⟩
          · rw [e2]; rfl
          · rw [World.events_eq, h2]; simp
          · intro y hy
            obtain ⟨z, hz, rfl⟩ := List.mem_map.1 hy
            rw [(events_shown r ht z (by rw [h2]; simp [hz])).2, e2]
            exact h3 z hz
      · exact absurd hxi (h2 x hx)
    · rw [if_neg hc]
      have hno : ∀ e ∈ w.events t, e.id ≠ id := fun e he hid =>
        hc ((contains_iff w t id).2 ((mem_events r ht id).2 ⟨e, he, hid⟩))
      rcases ih with ⟨k, ref, h1, h2, h3, h4⟩ | ⟨h1, h2⟩
      · left
        refine ⟨k, ref, h1, h2, h3, ?_⟩
        rcases h4 with ⟨rfl, _⟩ | ⟨a, b, p, q, g1, g2, g3, g4, g5⟩
        · cases h1
        refine .inr ⟨id :: a, b, p, q, by rw [g1]; rfl, ?_, g3, g4, g5⟩
        intro i hi
        rcases List.mem_cons.1 hi with rfl | hi
        · exact hno
        · exact g2 i hi
      · right
        refine ⟨h1, fun e he hm => ?_⟩
        rcases List.mem_cons.1 hm with hm | hm
        · exact hno e he hm
        · exact h2 e he hm

theorem getEvent_spec {w : World} {L : Nat → Prop} (r : WReach w L) {t : Nat} (ht : L t) (ids : List Nat) :
    (∃ k ref, w.getEvent t ids = .ok (some ref) ∧ (w.refs t)[k]? = some ref ∧ ref < w.store.length ∧
      Target (w.events t) ids k (w.ev ref)) ∨
    (ids ≠ [] ∧ w.getEvent t ids = .ok none ∧ ∀ e ∈ w.events t, e.id ∉ ids) ∨
    (ids = [] ∧ w.events t = [] ∧ w.getEvent t ids = .error .indexError) ∨
    (ids = [] ∧ 1 < (w.events t).length ∧ w.getEvent t ids = .error .lookupError) := by
  unfold World.getEvent
  cases ids with
  | cons i ids =>
    rcases firstOf_spec r ht (i :: ids) with h | h
    · exact .inl h
    · exact .inr (.inl ⟨by simp, h⟩)
  | nil =>
    have hl : (w.events t).length = (w.heap.lst t).length := by simp [World.events, World.refs]
    by_cases h1 : 1 < (w.heap.lst t).length
    · exact .inr (.inr (.inr ⟨rfl, by omega, by simp [h1]⟩))
    · cases hr : w.refs t with
      | nil =>
        refine .inr (.inr (.inl ⟨rfl, by simp [World.events, hr], by simp [h1]⟩))
      | cons ref rest =>
        have hrest : rest = [] := by
          have : (w.refs t).length ≤ 1 := by simp [World.refs]; omega
          rw [hr] at this
          simpa using this
        subst hrest
        have hm : ref ∈ (shown w.heap t).map Prod.fst := by rw [← World.refs_eq, hr]; simp
        obtain ⟨x, hx, rfl⟩ := List.mem_map.1 hm
        refine .inl ⟨0, x.1, by simp [h1], by simp, (events_shown r ht x hx).1, ?_⟩
        exact .inl ⟨rfl, by simp [World.events, hr], rfl⟩

theorem getEvent_congr {w w' : World} (h : w'.heap = w.heap) (t : Nat) (ids : List Nat) :
    w'.getEvent t ids = w.getEvent t ids := by
  have hf : ∀ ids, w'.firstOf t ids = w.firstOf t ids := by
    intro ids
    induction ids with
    | nil => rfl
    | cons i ids ih => unfold World.firstOf World.contains; rw [h, ih]
  unfold World.getEvent World.refs
  rw [h, hf]

/-- The events of a view after changing an object that occurs once. -/
theorem events_setEv {w : World} {t ref k : Nat} (e : Event) (hn : (w.refs t).Nodup)
    (hk : (w.refs t)[k]? = some ref) (hlt : ref < w.store.length) :
    (w.setEv ref e).events t = (w.events t).set k e := by
  show ((w.setEv ref e).refs t).map _ = _
  have hr : (w.setEv ref e).refs t = w.refs t := rfl
  rw [hr]
  obtain ⟨hk1, hk2⟩ := List.getElem?_eq_some_iff.1 hk
  apply List.ext_getElem
  · simp [World.events]
  · intro i i1 i2
    have hi : i < (w.refs t).length := by simpa using i1
    simp only [List.getElem_map, World.events, List.getElem_set, World.ev_setEv]
    by_cases h : k = i
    · subst h
      rw [if_pos rfl, if_pos ⟨hk2, hlt⟩]
    · rw [if_neg h, if_neg]
      rintro ⟨h1, _⟩
      exact h ((List.getElem_inj hn).1 (h1.trans hk2.symm)).symm

theorem refs_nodup {w : World} {L : Nat → Prop} (r : WReach w L) {t : Nat} (ht : L t) : (w.refs t).Nodup := by
  obtain ⟨h1, h2⟩ := wreach_sub r ht
  rw [World.refs_eq] at h2 ⊢
  exact h2.sublist (h1.map _)

/-- Writing through a descriptor changes one event object; it occurs exactly once in the
project. -/
theorem write_spec {α : Type} {w : World} {L : Nat → Prop} (r : WReach w L) {t : Nat} (ht : L t) (d : Descr α)
    (hro : d.readonly = false) (v : α) {k : Nat} {e : Event} (hT : Target (w.events t) d.ids k e) :
    ∃ ref, e = w.ev ref ∧ (w.refs t)[k]? = some ref ∧ ref < w.store.length ∧ w.getEvent t d.ids = .ok (some ref) ∧
      (∃ i, (w.refs 0)[i]? = some ref ∧ w.project.events[i]? = some e ∧
        ∀ e', ((w.setEv ref e').project = { w.project with events := w.project.events.set i e' })) ∧
      d.write w t v = (match d.set e v with
        | .error x => (w, .error x)
        | .ok e' => (w.setEv ref e', .ok ())) := by
  unfold Descr.write
  rw [hro]
  simp only [Bool.false_eq_true, if_false]
  have hlen : k < (w.events t).length ∧ (d.ids ≠ [] → e ∈ w.events t ∧ e.id ∈ d.ids) ∧
      (d.ids = [] → (w.events t).length = 1) := by
    rcases hT with ⟨h1, h2, h3⟩ | ⟨a, b, p, q, g1, g2, g3, g4, g5⟩
    · rw [h1, h2, h3]; simp
    · refine ⟨by rw [g3, g5]; simp, fun _ => ⟨by rw [g3]; simp, by rw [g1]; simp⟩, fun h => ?_⟩
      rw [h] at g1; simp at g1
  obtain ⟨hl1, hl2, hl3⟩ := hlen
  rcases getEvent_spec r ht d.ids with ⟨k', ref, h1, h2, h3, h4⟩ | ⟨h0, h1, h2⟩ | ⟨h0, h1, h2⟩ | ⟨h0, h1, h2⟩
  · obtain ⟨rfl, rfl⟩ := target_unique h4 hT
    rw [h1]
    refine ⟨ref, rfl, h2, h3, rfl, ?_, rfl⟩
    have hm : ref ∈ w.refs 0 := by
      rw [World.refs_eq]
      have : ref ∈ (shown w.heap t).map Prod.fst := by
        rw [← World.refs_eq]; exact List.mem_of_getElem? h2
      obtain ⟨x, hx, he⟩ := List.mem_map.1 this
      exact List.mem_map.2 ⟨x, (wreach_sub r ht).1.mem hx, he⟩
    obtain ⟨i, hi, hi2⟩ := List.mem_iff_getElem.1 hm
    have hi3 : (w.refs 0)[i]? = some ref := by rw [List.getElem?_eq_getElem hi, hi2]
    refine ⟨i, hi3, ?_, fun e => ?_⟩
    · show ((w.refs 0).map w.ev)[i]? = _
      rw [List.getElem?_map, hi3]
      rfl
    · have := events_setEv e (wreach_sub r ht).2 hi3 h3
      show Project.mk w.format w.channelCount w.ppq ((w.setEv ref e).events 0) = _
      rw [this]
      rfl
  · exact absurd (hl2 h0).2 (h2 e (hl2 h0).1)
  · rw [h1] at hl1; simp at hl1
  · have := hl3 h0; omega

end PyFLP
