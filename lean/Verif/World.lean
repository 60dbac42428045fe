import Verif.File
import Verif.Props.Views
/-!
# A project as a program sees it: event objects shared by trees

`parse` creates the event objects and the topmost tree (`__init__.py:168-173`);
models hold views; properties change the value of event objects in place.
-/

namespace PyFLP

instance : Inhabited Event := ⟨⟨0, .unknown, .bytes [], 0⟩⟩

/-- Header values of `Project` (`project.py:164-181`), event trees, and the event
objects (a `Cell.ref` is the number of one). -/
structure World where
  format : Int
  channelCount : Nat
  ppq : Nat
  heap : Heap
  store : List Event
  deriving DecidableEq

namespace World

/-- The event object with this number. -/
def ev (w : World) (ref : Nat) : Event := w.store.getD ref default

/-- `event.value = v` (and changes inside the value). -/
def setEv (w : World) (ref : Nat) (e : Event) : World := { w with store := w.store.set ref e }

/-- `(ie.e for ie in self.lst)` (`_events.py:452-453`): the event objects of a tree. -/
def refs (w : World) (t : Nat) : List Nat := (w.heap.lst t).map fun a => (w.heap.cell a).ref

/-- `list(tree)`. -/
def events (w : World) (t : Nat) : List Event := (w.refs t).map w.ev

/-- What `save` gets: header values and the events of the topmost tree
(`__init__.py:186-196`). -/
def project (w : World) : Project := ⟨w.format, w.channelCount, w.ppq, w.events 0⟩

/-- What `parse` returns (`__init__.py:168-173`). -/
def ofProject (p : Project) : World :=
  ⟨p.format, p.channelCount, p.ppq, Heap.ofEvents (p.events.zipIdx.map fun x => (x.2, x.1.id)), p.events⟩

end World

open Spec Heap

namespace Spec

/-- The states of a program that uses the API: parse, create views, remove events
through views, insert new events through views, assign to properties (which changes the value of
an event object in some way) and to header values.  `L` tells which views are up to date. -/
inductive WReach : World → (Nat → Prop) → Prop
  | parsed (p : Project) : WReach (World.ofProject p) (· = 0)
  | view {w L t} (r : WReach w L) (ht : L t) (hne : shown w.heap 0 ≠ []) (call : ViewCall) :
      WReach { w with heap := (view w.heap t call).1 } (fun u => L u ∨ u ∈ (view w.heap t call).2)
  | pop {w L t id n h' x} (r : WReach w L) (ht : L t) (hp : w.heap.pop t id n = (h', .ok x)) :
      WReach { w with heap := h' } (fun u => L u ∧ ∀ v ∈ u :: w.heap.ancestors u,
        v ∈ t :: w.heap.ancestors t ∨ x ∉ (shown w.heap v).map Prod.fst)
  | insert {w L t pos h'} (r : WReach w L) (ht : L t) (e : Event)
      (hi : w.heap.insert t pos w.store.length e.id = (h', .ok ())) :
      WReach { w with heap := h', store := w.store ++ [e] } (fun u => L u ∧ ∀ v ∈ u :: w.heap.ancestors u,
        v ∈ t :: w.heap.ancestors t → v = 0)
  | assign {w L} (r : WReach w L) (ref : Nat) (v : Value) :
      WReach (w.setEv ref { w.ev ref with value := v }) L
  | header {w L} (r : WReach w L) (format : Int) (channelCount ppq : Nat) :
      WReach { w with format := format, channelCount := channelCount, ppq := ppq } L

end Spec

/-! ### Invariant -/

theorem shown_view {h : Heap} {t : Nat} (ht : t < h.trees.length) (call : ViewCall) {u : Nat}
    (hu : u < h.trees.length) : shown (view h t call).1 u = shown h u := by
  rw [view_eq]
  obtain ⟨_, y2, _, _, y5, _⟩ := yieldViews_raw (ViewCall.lists h t call) h ht
  exact shown_of y2 (y5 u hu).1

theorem shown_pop {h h' : Heap} {L : Nat → Prop} (r : Reach h L) {t id : Nat} {n : Int} {x : Nat} (ht : L t)
    (hp : h.pop t id n = (h', .ok x)) : (shown h' 0).Sublist (shown h 0) := by
  obtain ⟨g, hn⟩ := reach_good r
  obtain ⟨p1, p2⟩ := pop_shown g ht id n
  cases hpp : plainPop (shown h t) id n with
  | error e => rw [p1 e hpp] at hp; cases hp
  | ok res =>
    obtain ⟨ev, l'⟩ := res
    obtain ⟨h'', ie, e1, e2, e3, e4, e5, e6, e7, e8, e9⟩ := p2 ev l' hpp
    rw [hp] at e1
    injection e1 with e1 e1'
    subst e1
    obtain ⟨c1, _, _⟩ := g.chain_facts t ht
    rw [shown_congr e6 0 _ (e8 0), if_pos c1]
    unfold shown
    exact List.filter_sublist.map _

/-- The events of the project after an insertion: there is one more, at one place. -/
theorem shown_inserted {h h' : Heap} {L : Nat → Prop} (r : Reach h L) {t : Nat} (ht : L t) {pos : Int} {ref id : Nat}
    (hi : h.insert t pos ref id = (h', .ok ())) :
    ∃ k, shown h' 0 = (shown h 0).take k ++ (ref, id) :: (shown h 0).drop k := by
  have g := (reach_good r).1
  obtain ⟨k, hkl, hx⟩ := insert_place g ht hi
  obtain ⟨h'', n, e1, e2, e3, e4, e5, e6, e7, e8⟩ := Heap.insert_any_good g ht pos ref id hkl hx
  rw [hi] at e1
  injection e1 with e1 _
  subst e1
  refine ⟨k, ?_⟩
  unfold shown
  rw [e7, List.map_append, List.map_cons, e4, ← List.map_take, ← List.map_drop]
  have hc : ∀ a ∈ h.lst 0, ((h'.cell a).ref, (h'.cell a).id) = ((h.cell a).ref, (h.cell a).id) := fun a ha => by
    rw [(e5 a (g.inCells a ha)).1, (e5 a (g.inCells a ha)).2]
  rw [List.map_congr_left (fun a ha => hc a (List.mem_of_mem_take ha)),
    List.map_congr_left (fun a ha => hc a (List.mem_of_mem_drop ha))]

theorem shown_insert {h h' : Heap} {L : Nat → Prop} (r : Reach h L) {t : Nat} (ht : L t) {pos : Int} {ref id : Nat}
    (hi : h.insert t pos ref id = (h', .ok ())) :
    ∀ x ∈ shown h' 0, x = (ref, id) ∨ x ∈ shown h 0 := by
  obtain ⟨k, hk⟩ := shown_inserted r ht hi
  rw [hk]
  intro x hx
  rcases List.mem_append.1 hx with hx | hx
  · exact .inr (List.mem_of_mem_take hx)
  · rcases List.mem_cons.1 hx with hx | hx
    · exact .inl hx
    · exact .inr (List.mem_of_mem_drop hx)

theorem shown_ofEvents (evs : List Ev) : shown (Heap.ofEvents evs) 0 = evs := by
  obtain ⟨h1, h2, h3⟩ := Heap.ofEvents_good evs
  have hl : (Heap.ofEvents evs).lst 0 = List.range evs.length := by
    unfold Heap.lst Heap.tree; rw [h2]; rfl
  unfold shown
  rw [hl]
  apply List.ext_getElem
  · simp
  · intro i i1 i2
    have hi : i < evs.length := by simpa using i2
    simp [Heap.cell, h1, List.getD_eq_getElem?_getD, hi]

theorem World.refs_eq (w : World) (t : Nat) : w.refs t = (shown w.heap t).map Prod.fst := by
  simp [World.refs, shown]

theorem World.ev_of_lt {w : World} {ref : Nat} (h : ref < w.store.length) : w.ev ref = w.store[ref] := by
  simp [World.ev, List.getD_eq_getElem?_getD, h]

theorem World.ev_setEv (w : World) (ref : Nat) (e : Event) (ref' : Nat) :
    (w.setEv ref e).ev ref' = if ref' = ref ∧ ref < w.store.length then e else w.ev ref' := by
  unfold World.setEv World.ev
  simp only [List.getD_eq_getElem?_getD, List.getElem?_set]
  by_cases h : ref = ref'
  · subst h
    by_cases h2 : ref < w.store.length
    · simp [h2]
    · simp [h2]
  · rw [if_neg h, if_neg (fun e => h e.1.symm)]

/-- The heap of a reachable state is reachable, and trees refer to event objects with
the right id. -/
theorem wreach_inv {w : World} {L : Nat → Prop} (r : WReach w L) :
    Reach w.heap L ∧ ∀ x ∈ shown w.heap 0, x.1 < w.store.length ∧ (w.ev x.1).id = x.2 := by
  induction r with
  | parsed p =>
    constructor
    · refine .parsed _ ?_
      rw [List.map_map]
      have : (Prod.fst ∘ fun x : Event × Nat => (x.2, x.1.id)) = Prod.snd := rfl
      rw [this]
      have h2 : p.events.zipIdx.map Prod.snd = List.range p.events.length := by
        rw [List.zipIdx_eq_zip_range', List.map_snd_zip (by simp), List.range_eq_range']
      rw [h2]
      exact List.nodup_range
    · intro x hx
      rw [World.ofProject, shown_ofEvents] at hx
      obtain ⟨y, hy, rfl⟩ := List.mem_map.1 hx
      obtain ⟨e, i⟩ := y
      have := List.mem_zipIdx_iff_getElem?.1 hy
      obtain ⟨hlt, he⟩ := List.getElem?_eq_some_iff.1 this
      refine ⟨hlt, ?_⟩
      rw [World.ev_of_lt hlt]
      exact congrArg Event.id he
  | @view w L t r ht hne call ih =>
    obtain ⟨i1, i2⟩ := ih
    refine ⟨.view i1 ht hne call, ?_⟩
    obtain ⟨g, _⟩ := reach_good i1
    intro x hx
    rw [shown_view (g.lt t ht) call (g.lt 0 g.vρ)] at hx
    exact i2 x hx
  | @pop w L t id n h' x r ht hp ih =>
    obtain ⟨i1, i2⟩ := ih
    refine ⟨.pop i1 ht hp, ?_⟩
    intro y hy
    exact i2 y ((shown_pop i1 ht hp).mem hy)
  | @insert w L t pos h' r ht e hi ih =>
    obtain ⟨i1, i2⟩ := ih
    refine ⟨.insert i1 ht ?_ hi, ?_⟩
    · intro hm
      obtain ⟨x, hx, he⟩ := List.mem_map.1 hm
      have := (i2 x hx).1
      omega
    · intro x hx
      rcases shown_insert i1 ht hi x hx with rfl | hx
      · refine ⟨by simp, ?_⟩
        simp [World.ev]
      · obtain ⟨j1, j2⟩ := i2 x hx
        refine ⟨by simp; omega, ?_⟩
        rw [← j2]
        simp [World.ev, List.getD_eq_getElem?_getD, List.getElem?_append_left j1]
  | @assign w L r ref v ih =>
    obtain ⟨i1, i2⟩ := ih
    refine ⟨i1, ?_⟩
    intro x hx
    obtain ⟨j1, j2⟩ := i2 x hx
    refine ⟨by simpa [World.setEv] using j1, ?_⟩
    rw [World.ev_setEv]
    split
    · next h => rw [← h.1]; exact j2
    · exact j2
  | header r _ _ _ ih => exact ih

/-- The events of every up-to-date view are among those of the project, in its order. -/
theorem wreach_sub {w : World} {L : Nat → Prop} (r : WReach w L) {t : Nat} (ht : L t) :
    (shown w.heap t).Sublist (shown w.heap 0) ∧ (w.refs 0).Nodup := by
  obtain ⟨g, hn⟩ := reach_good (wreach_inv r).1
  refine ⟨?_, by rw [World.refs_eq]; exact hn⟩
  unfold shown
  exact (g.sub t ht).map _

/-- The events of the project after an insertion. -/
theorem inserted_events {w : World} {L : Nat → Prop} (r : WReach w L) {t : Nat} (ht : L t) {pos : Int} {h' : Heap} {e : Event}
    (h : w.heap.insert t pos w.store.length e.id = (h', .ok ())) :
    ∃ k, ({ w with heap := h', store := w.store ++ [e] } : World).project.events =
      w.project.events.take k ++ e :: w.project.events.drop k := by
  obtain ⟨hr, hinv⟩ := wreach_inv r
  obtain ⟨k, hk⟩ := shown_inserted hr ht h
  refine ⟨k, ?_⟩
  show World.events _ 0 = (w.events 0).take k ++ e :: (w.events 0).drop k
  unfold World.events
  rw [World.refs_eq, World.refs_eq]
  dsimp only
  rw [hk]
  have hev : ∀ x ∈ shown w.heap 0, World.ev { w with heap := h', store := w.store ++ [e] } x.1 = w.ev x.1 := by
    intro x hx
    have := (hinv x hx).1
    simp [World.ev, List.getD_eq_getElem?_getD, List.getElem?_append_left this]
  have hnew : World.ev { w with heap := h', store := w.store ++ [e] } w.store.length = e := by
    simp [World.ev, List.getD_eq_getElem?_getD]
  simp only [List.map_append, List.map_cons, List.map_take, List.map_drop, List.map_map, hnew]
  have : (shown w.heap 0).map (World.ev { w with heap := h', store := w.store ++ [e] } ∘ Prod.fst) =
      (shown w.heap 0).map (w.ev ∘ Prod.fst) := List.map_congr_left fun x hx => hev x hx
  rw [this]

/-- Parsing gives exactly the project. -/
theorem ofProject_project (p : Project) : (World.ofProject p).project = p := by
  unfold World.project World.events
  rw [World.refs_eq]
  have : (World.ofProject p).heap = Heap.ofEvents (p.events.zipIdx.map fun x => (x.2, x.1.id)) := rfl
  rw [this, shown_ofEvents, List.map_map, List.map_map]
  have hev : p.events.zipIdx.map (((World.ofProject p).ev ∘ Prod.fst) ∘ fun x => (x.2, x.1.id)) = p.events := by
    apply List.ext_getElem
    · simp
    · intro i i1 i2
      simp [World.ev, World.ofProject, List.getD_eq_getElem?_getD, i2]
  rw [hev]
  rfl

end PyFLP
