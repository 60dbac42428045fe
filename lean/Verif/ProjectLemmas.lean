import Verif.ProjectModel
import Verif.DescriptorLemmas
/-!
# Lemmas about the project model
-/

namespace PyFLP

open Spec Heap

namespace Spec

/-- The events a rule accepts; the rule sees the events before the one in question. -/
def keep {α : Type} (rule : List α → α → Bool) (before : List α) : List α → List α
  | [] => []
  | e :: es => if rule before e then e :: keep rule (before ++ [e]) es else keep rule (before ++ [e]) es

/-- The value of the first event with this id. -/
def valueOf (evs : List Event) (id : Nat) : Option Value := (evs.find? fun e => e.id == id).map Event.value

/-- The events with another value of the first event with this id. -/
def setFirst (evs : List Event) (id : Nat) (v : Value) : List Event :=
  match evs with
  | [] => []
  | e :: es => if e.id == id then { e with value := v } :: es else e :: setFirst es id v

end Spec

/-! ### Stateful selections -/

theorem pickBy_map {σ α β : Type} (f : α → β) {idOf : α → Nat} {idOf' : β → Nat} (hid : ∀ a, idOf' (f a) = idOf a)
    (step : σ → Nat → Bool × σ) (s : σ) (l : List α) :
    (pickBy idOf step s l).map f = pickBy idOf' step s (l.map f) := by
  induction l generalizing s with
  | nil => rfl
  | cons a l ih =>
    simp only [pickBy, List.map_cons, hid]
    split <;> simp [ih]

theorem pickBy_sublist {σ α : Type} (idOf : α → Nat) (step : σ → Nat → Bool × σ) (s : σ) (l : List α) :
    (pickBy idOf step s l).Sublist l := by
  induction l generalizing s with
  | nil => exact .slnil
  | cons a l ih =>
    simp only [pickBy]
    split
    · exact (ih _).cons_cons a
    · exact (ih _).cons a

theorem filter_mem_sublist {α : Type} [DecidableEq α] {el l : List α} (hn : l.Nodup) (hs : el.Sublist l) :
    l.filter (fun a => decide (a ∈ el)) = el := by
  induction hs with
  | slnil => rfl
  | @cons el l a hs ih =>
    rw [List.nodup_cons] at hn
    have : a ∉ el := fun h => hn.1 (hs.mem h)
    rw [List.filter_cons, if_neg (by simpa using this), ih hn.2]
  | @cons_cons el l a hs ih =>
    rw [List.nodup_cons] at hn
    rw [List.filter_cons, if_pos (by simp)]
    congr 1
    rw [← ih hn.2]
    apply List.filter_congr
    intro b hb
    have hne : b ≠ a := fun e => hn.1 (e ▸ hb)
    have : (b ∈ l.filter fun a => decide (a ∈ el)) ↔ b ∈ el := by
      rw [List.mem_filter]; simp [hb]
    rw [decide_eq_decide, List.mem_cons]
    simp [hne, hb]

/-- What a view chosen by a stateful callback shows. -/
theorem pickView_shown {σ : Type} {w : World} {L : Nat → Prop} (r : WReach w L) {t : Nat} (ht : L t)
    (step : σ → Nat → Bool × σ) (s : σ) :
    shown (w.pickView t step s).1.heap (w.pickView t step s).2 = pickBy Prod.snd step s (shown w.heap t) := by
  have hr := (wreach_inv r).1
  obtain ⟨g, _⟩ := reach_good hr
  have h := view_shown' hr ht (.subtree fun a => decide (a ∈ pickBy w.heap.idOf step s (w.heap.lst t)))
    (by
      intro el hel
      simp only [ViewCall.lists, List.mem_singleton] at hel
      subst hel
      exact List.filter_sublist)
  simp only [ViewCall.lists, List.map_cons, List.map_nil] at h
  rw [filter_mem_sublist (g.sorted ht).nodup (pickBy_sublist _ _ _ _),
    pickBy_map (fun a => ((w.heap.cell a).ref, (w.heap.cell a).id)) (idOf := w.heap.idOf) (idOf' := Prod.snd) (fun _ => rfl)] at h
  exact (List.cons.inj h).1

theorem pickView_eq {σ : Type} (w : World) (t : Nat) (step : σ → Nat → Bool × σ) (s : σ) :
    (w.pickView t step s).1 = { w with heap := (view w.heap t (.subtree fun a =>
      decide (a ∈ pickBy w.heap.idOf step s (w.heap.lst t)))).1 } ∧
    [(w.pickView t step s).2] = (view w.heap t (.subtree fun a =>
      decide (a ∈ pickBy w.heap.idOf step s (w.heap.lst t)))).2 := ⟨rfl, rfl⟩

theorem pickView_reach {σ : Type} {w : World} {L : Nat → Prop} (r : WReach w L) {t : Nat} (ht : L t)
    (hne : shown w.heap 0 ≠ []) (step : σ → Nat → Bool × σ) (s : σ) :
    WReach (w.pickView t step s).1 (fun u => L u ∨ u = (w.pickView t step s).2) := by
  obtain ⟨e1, e2⟩ := pickView_eq w t step s
  rw [e1]
  have := WReach.view r ht hne (.subtree fun a => decide (a ∈ pickBy w.heap.idOf step s (w.heap.lst t)))
  rw [← e2] at this
  simpa using this

/-- Older views keep showing the same, and the event objects are untouched. -/
theorem pickView_old {σ : Type} {w : World} {L : Nat → Prop} (r : WReach w L) {t : Nat} (ht : L t)
    (step : σ → Nat → Bool × σ) (s : σ) {u : Nat} (hu : u < w.heap.trees.length) :
    shown (w.pickView t step s).1.heap u = shown w.heap u ∧ (w.pickView t step s).1.store = w.store := by
  obtain ⟨g, _⟩ := reach_good (wreach_inv r).1
  exact ⟨shown_view (g.lt t ht) (.subtree fun a => decide (a ∈ pickBy w.heap.idOf step s (w.heap.lst t))) hu, rfl⟩

/-- A callback whose state depends on the events seen so far. -/
theorem pickBy_keep {σ : Type} (step : σ → Nat → Bool × σ) (f : List Ev → σ) (rule : List Ev → Ev → Bool)
    (h1 : ∀ pre e, (step (f pre) e.2).1 = rule pre e) (h2 : ∀ pre e, (step (f pre) e.2).2 = f (pre ++ [e]))
    (pre l : List Ev) : pickBy Prod.snd step (f pre) l = keep rule pre l := by
  induction l generalizing pre with
  | nil => rfl
  | cons e l ih => simp only [pickBy, keep, h1, h2, ih]

/-- A rule in terms of positions. -/
theorem mem_keep {α : Type} {rule : List α → α → Bool} {e : α} {before l : List α} :
    e ∈ keep rule before l ↔ ∃ pre post, l = pre ++ e :: post ∧ rule (before ++ pre) e = true := by
  induction l generalizing before with
  | nil => simp [keep]
  | cons a l ih =>
    have : (e ∈ keep rule (before ++ [a]) l) ↔ ∃ pre post, a :: l = (a :: pre) ++ e :: post ∧
        rule (before ++ a :: pre) e = true := by
      rw [ih]; simp
    simp only [keep]
    constructor
    · intro h
      split at h
      · next hr =>
        rcases List.mem_cons.1 h with rfl | h
        · exact ⟨[], l, rfl, by simpa using hr⟩
        · obtain ⟨p, q, h1, h2⟩ := this.1 h
          exact ⟨a :: p, q, h1, h2⟩
      · obtain ⟨p, q, h1, h2⟩ := this.1 h
        exact ⟨a :: p, q, h1, h2⟩
    · rintro ⟨p, q, h1, h2⟩
      cases p with
      | nil =>
        simp only [List.nil_append, List.cons.injEq, List.append_nil] at h1 h2
        obtain ⟨rfl, rfl⟩ := h1
        rw [if_pos h2]; simp
      | cons b p =>
        obtain ⟨rfl, -⟩ := List.cons.inj h1
        have : e ∈ keep rule (before ++ [a]) l := this.2 ⟨p, q, h1, h2⟩
        split
        · exact List.mem_cons_of_mem _ this
        · exact this

/-! ### First events -/

theorem World.contains_eq {w : World} {L : Nat → Prop} (r : WReach w L) {t : Nat} (ht : L t) (id : Nat) :
    w.contains t id = (valueOf (w.events t) id).isSome := by
  rw [Bool.eq_iff_iff, contains_iff, mem_events r ht]
  unfold valueOf
  rw [Option.isSome_map, List.find?_isSome]
  simp

/-- Reading through `first`. -/
theorem World.first_value {w : World} {L : Nat → Prop} (r : WReach w L) {t : Nat} (ht : L t) (id : Nat) :
    (∃ ref, w.heap.first t id = .ok ref ∧ ref < w.store.length ∧ valueOf (w.events t) id = some (w.ev ref).value ∧
      (w.ev ref).id = id) ∨
    (w.heap.first t id = .error .keyError ∧ valueOf (w.events t) id = none) := by
  rcases first_spec w.heap t id with ⟨pre, post, ref, h1, h2, h3⟩ | ⟨h1, h2⟩
  · left
    have hmem : (ref, id) ∈ shown w.heap t := by rw [h2]; simp
    obtain ⟨e1, e2⟩ := events_shown r ht _ hmem
    refine ⟨ref, h1, e1, ?_, e2⟩
    unfold valueOf
    have : (w.events t).find? (fun e => e.id == id) = some (w.ev ref) := by
      rw [List.find?_eq_some_iff_append]
      refine ⟨by simpa using e2, pre.map fun x => w.ev x.1, post.map fun x => w.ev x.1, ?_, ?_⟩
      · rw [World.events_eq, h2]; simp
      · intro y hy
        obtain ⟨z, hz, rfl⟩ := List.mem_map.1 hy
        have := (events_shown r ht z (by rw [h2]; simp [hz])).2
        simpa [this] using h3 z hz
    rw [this]; rfl
  · right
    refine ⟨h1, ?_⟩
    unfold valueOf
    have : (w.events t).find? (fun e => e.id == id) = none := by
      rw [List.find?_eq_none]
      intro e he
      rw [World.events_eq] at he
      obtain ⟨x, hx, rfl⟩ := List.mem_map.1 he
      rw [(events_shown r ht x hx).2]
      simpa using h2 x hx
    rw [this]; rfl

theorem setFirst_set {evs : List Event} {id : Nat} {v : Value} {pre post : List Event} {e : Event}
    (h : evs = pre ++ e :: post) (hpre : ∀ x ∈ pre, x.id ≠ id) (he : e.id = id) :
    setFirst evs id v = pre ++ { e with value := v } :: post := by
  subst h
  induction pre with
  | nil => simp [setFirst, he]
  | cons a pre ih =>
    rw [List.cons_append, setFirst, if_neg (by simpa using hpre a (by simp)), ih (fun x hx => hpre x (by simp [hx]))]
    rfl

/-- Assigning through `first` on the project. -/
theorem World.first_set {w : World} {L : Nat → Prop} (r : WReach w L) (h0 : L 0) {id ref : Nat} (v : Value)
    (h : w.heap.first 0 id = .ok ref) :
    (w.setEv ref { w.ev ref with value := v }).project =
      { w.project with events := setFirst w.project.events id v } ∧
    WReach (w.setEv ref { w.ev ref with value := v }) L := by
  refine ⟨?_, .assign r ref v⟩
  rcases first_spec w.heap 0 id with ⟨pre, post, ref', h1, h2, h3⟩ | ⟨h1, h2⟩
  · rw [h1] at h
    injection h with h
    subst h
    have hmem : (ref', id) ∈ shown w.heap 0 := by rw [h2]; simp
    obtain ⟨e1, e2⟩ := events_shown r h0 _ hmem
    have hk : (w.refs 0)[pre.length]? = some ref' := by rw [World.refs_eq, h2]; simp
    have hs := events_setEv { w.ev ref' with value := v } (refs_nodup r h0) hk e1
    show Project.mk w.format w.channelCount w.ppq ((w.setEv ref' _).events 0) = Project.mk w.format w.channelCount w.ppq _
    rw [hs]
    congr 1
    have hev : w.events 0 = (pre.map fun x => w.ev x.1) ++ w.ev ref' :: post.map fun x => w.ev x.1 := by
      rw [World.events_eq, h2]; simp
    show _ = setFirst (w.events 0) id v
    rw [setFirst_set hev ?_ e2, hev]
    · simp
    · intro y hy
      obtain ⟨z, hz, rfl⟩ := List.mem_map.1 hy
      rw [(events_shown r h0 z (by rw [h2]; simp [hz])).2]
      exact h3 z hz
  · rw [h1] at h; cases h

/-! ### `setFirst` and `valueOf` -/

theorem valueOf_setFirst_self {evs : List Event} {id : Nat} {v : Value} (h : (valueOf evs id).isSome) :
    valueOf (setFirst evs id v) id = some v := by
  induction evs with
  | nil => cases h
  | cons e evs ih =>
    by_cases he : e.id == id
    · simp [setFirst, he, valueOf]
    · rw [setFirst, if_neg he]
      unfold valueOf at *
      have he' : (e.id == id) = false := by simpa using he
      simp only [List.find?_cons, he'] at h ⊢
      exact ih h

theorem valueOf_setFirst_other {evs : List Event} {id id' : Nat} {v : Value} (h : id' ≠ id) :
    valueOf (setFirst evs id v) id' = valueOf evs id' := by
  induction evs with
  | nil => rfl
  | cons e evs ih =>
    by_cases he : e.id == id
    · have hne : (e.id == id') = false := by
        simp only [beq_iff_eq] at he; simp [he, Ne.symm h]
      simp [setFirst, he, valueOf, hne]
    · rw [setFirst, if_neg he]
      unfold valueOf at *
      rw [List.find?_cons, List.find?_cons]
      split
      · rfl
      · exact ih

theorem setFirst_ids (evs : List Event) (id : Nat) (v : Value) :
    (setFirst evs id v).map (fun e => (e.id, e.kind, e.len)) = evs.map fun e => (e.id, e.kind, e.len) := by
  induction evs with
  | nil => rfl
  | cons e evs ih =>
    rw [setFirst]
    split
    · rfl
    · simp [ih]

theorem setFirst_none {evs : List Event} {id : Nat} {v : Value} (h : valueOf evs id = none) :
    setFirst evs id v = evs := by
  induction evs with
  | nil => rfl
  | cons e evs ih =>
    unfold valueOf at *
    rw [List.find?_cons] at h
    split at h
    · cases h
    · next he => rw [setFirst, he, ih h]; rfl

/-- `project.events` is the list of the topmost tree. -/
theorem World.project_events (w : World) : w.project.events = w.events 0 := rfl

end PyFLP
