import Verif.Plugins
import Verif.Props.Plugins
/-!
# C90 and C91: models within models, and plugins of channels and slots
-/

namespace PyFLP
open Spec

namespace Spec

/-- The model `u` has exactly the events of the model `t` with one of the ids: the same objects, in the same order. -/
def Part (w : World) (u t : Nat) (ids : List Nat) : Prop :=
  w.refs u = (w.refs t).filter fun ref => decide ((w.ev ref).id ∈ ids)

end Spec

theorem nested_raw (w : World) {t : Nat} (hlt : t < w.heap.trees.length) (hs : w.heap.Sorted (w.heap.lst t)) (ids : List Nat) :
    shown (nestedProp ids w t).1.heap (nestedProp ids w t).2 = (shown w.heap t).filter (fun x => decide (x.2 ∈ ids)) ∧
    (∀ v, v < w.heap.trees.length → shown (nestedProp ids w t).1.heap v = shown w.heap v) ∧
    (nestedProp ids w t).1.store = w.store ∧ (nestedProp ids w t).1.format = w.format ∧
    (nestedProp ids w t).1.channelCount = w.channelCount ∧ (nestedProp ids w t).1.ppq = w.ppq := by
  refine ⟨?_, fun v hv => shown_view hlt (.subtree fun a => decide (w.heap.idOf a ∈ ids)) hv, rfl, rfl, rfl, rfl⟩
  have h := view_shown hlt (.subtree fun a => decide (w.heap.idOf a ∈ ids))
  simp only [ViewCall.lists, List.map_cons, List.map_nil] at h
  rw [Heap.sortCells_sorted (hs.sub List.filter_sublist)] at h
  refine (List.cons.inj h).1.trans ?_
  unfold shown
  rw [List.filter_map]
  rfl

/-- C90: the model that a nested property gives (`channel.delay`, `insert.eq`, `channel.plugin`, …) has exactly the events of
its parent with the ids of the property.  Making it changes neither the project nor what any other model shows. -/
theorem C90_nested {w : World} {L : Nat → Prop} (r : WReach w L) {t : Nat} (ht : L t) (hne : w.project.events ≠ [])
    (ids : List Nat) :
    ∃ w' u, nestedProp ids w t = (w', u) ∧ WReach w' (fun v => L v ∨ v = u) ∧ Part w' u t ids ∧ w'.project = w.project ∧
      ∀ v, L v → w'.refs v = w.refs v ∧ w'.events v = w.events v := by
  obtain ⟨g, _⟩ := reach_good (wreach_inv r).1
  obtain ⟨n1, n2, n3, n4, n5, n6⟩ := nested_raw w (g.lt t ht) (g.sorted ht) ids
  have hne' : shown w.heap 0 ≠ [] := by
    intro h
    apply hne
    show w.events 0 = []
    rw [World.events_eq, h]
    rfl
  have hw := WReach.view r ht hne' (.subtree fun a => decide (w.heap.idOf a ∈ ids))
  have hev : ∀ x, (nestedProp ids w t).1.ev x = w.ev x := fun x => by unfold World.ev; rw [n3]
  have hrefs : ∀ v, L v → (nestedProp ids w t).1.refs v = w.refs v := fun v hv => by
    rw [World.refs_eq, World.refs_eq, n2 v (g.lt v hv)]
  have hevs : ∀ v, L v → (nestedProp ids w t).1.events v = w.events v := fun v hv => by
    unfold World.events
    rw [hrefs v hv]
    exact List.map_congr_left fun x _ => hev x
  refine ⟨(nestedProp ids w t).1, (nestedProp ids w t).2, rfl, ?_, ?_, ?_, fun v hv => ⟨hrefs v hv, hevs v hv⟩⟩
  · have e : (fun v => L v ∨ v = (nestedProp ids w t).2) = fun v => L v ∨ v ∈ [(nestedProp ids w t).2] := by
      funext v; simp
    rw [e]
    exact hw
  · unfold Part
    show (nestedProp ids w t).1.refs (nestedProp ids w t).2 = _
    rw [World.refs_eq, n1, hrefs t ht, World.refs_eq, List.filter_map]
    congr 1
    apply List.filter_congr
    intro x hx
    show _ = decide (((nestedProp ids w t).1.ev x.1).id ∈ ids)
    rw [hev, (events_shown r ht x hx).2]
  · unfold World.project
    rw [hevs 0 g.vρ, n4, n5, n6]

theorem changedOnly_refs {w w' : World} {v : Nat} {ids : List Nat} (h : ChangedOnly w w' v ids) (t : Nat) :
    w'.refs t = w.refs t := by
  unfold World.refs
  rw [h.heap]

/-- C90: parent and nested model show the same values for ever: whatever is assigned through whichever model, the nested model
has the events of the parent, and so reads the same values. -/
theorem C90_lasting {w w' : World} {u t : Nat} {ids : List Nat} (hp : Part w u t ids) {v : Nat} {changed : List Nat}
    (hc : ChangedOnly w w' v changed) :
    Part w' u t ids ∧ w'.events u = (w'.events t).filter (fun e => decide (e.id ∈ ids)) ∧
      ∀ id ∈ ids, valueOf (w'.events u) id = valueOf (w'.events t) id := by
  have hP : Part w' u t ids := by
    unfold Part
    rw [changedOnly_refs hc, changedOnly_refs hc, hp]
    apply List.filter_congr
    intro x _
    obtain ⟨y, hy, _⟩ := hc.store x
    rw [hy]
  have he : w'.events u = (w'.events t).filter (fun e => decide (e.id ∈ ids)) := by
    unfold World.events
    rw [hP, List.filter_map]
    rfl
  refine ⟨hP, he, fun id hid => ?_⟩
  rw [he]
  unfold valueOf
  rw [List.find?_filter]
  congr 1
  apply congrArg (fun p => List.find? p (w'.events t))
  funext e
  by_cases h : e.id = id
  · simp [h, hid]
  · simp [h]


/-! ### The plugin of a channel or slot -/

theorem first_find {w : World} {L : Nat → Prop} (r : WReach w L) {t : Nat} (ht : L t) (id : Nat) :
    (∃ ref, w.heap.first t id = .ok ref ∧ (w.events t).find? (fun e => e.id == id) = some (w.ev ref) ∧ ref ∈ w.refs t ∧
      (w.ev ref).id = id) ∨
    (w.heap.first t id = .error .keyError ∧ (w.events t).find? (fun e => e.id == id) = none) := by
  rcases first_spec w.heap t id with ⟨pre, post, ref, h1, h2, h3⟩ | ⟨h1, h2⟩
  · left
    have hid : (w.ev ref).id = id := (events_shown r ht (ref, id) (by rw [h2]; simp)).2
    refine ⟨ref, h1, ?_, ?_, hid⟩
    · rw [World.events_eq, h2, List.map_append, List.find?_append]
      have : (pre.map fun x => w.ev x.1).find? (fun e => e.id == id) = none := by
        rw [List.find?_eq_none]
        intro e he
        obtain ⟨x, hx, rfl⟩ := List.mem_map.1 he
        have := (events_shown r ht x (by rw [h2]; simp [hx])).2
        rw [this]
        simpa using h3 x hx
      rw [this]
      simp [hid]
    · rw [World.refs_eq, h2]; simp
  · right
    refine ⟨h1, ?_⟩
    rw [World.events_eq, List.find?_eq_none]
    intro e he
    obtain ⟨x, hx, rfl⟩ := List.mem_map.1 he
    rw [(events_shown r ht x hx).2]
    simpa using h2 x hx

/-- C90, plugins: `channel.plugin` and `slot.plugin` are `None` without plugin data or if no class fits; otherwise the class
is the one of the plugin data (`_PluginBase` for data of unknown plugins) and the model has the events of the plugin. -/
theorem C90_plugin {w : World} {L : Nat → Prop} (r : WReach w L) {t : Nat} (ht : L t) {types : List PluginType}
    (hty : types = instrumentPlugins ∨ types = slotPlugins) :
    ((w.events t).find? (fun e => e.id == 213) = none → w.pluginOf t types = (w, none)) ∧
    ∀ e, (w.events t).find? (fun e => e.id == 213) = some e →
      (e.kind ≠ .unknown → (∀ p ∈ types, e.kind ≠ p.kind) → w.pluginOf t types = (w, none)) ∧
      ∀ p, p ∈ types ∨ p = .base → e.kind = p.kind →
        ∃ w' u, w.pluginOf t types = (w', some (p, u)) ∧ WReach w' (fun v => L v ∨ v = u) ∧ Part w' u t [212, 213] ∧
          w'.project = w.project ∧ ∀ v, L v → w'.refs v = w.refs v ∧ w'.events v = w.events v := by
  unfold World.pluginOf
  rcases first_find r ht 213 with ⟨ref, f1, f2, f3, -⟩ | ⟨f1, f2⟩
  · rw [f1, f2]
    refine ⟨fun h => (nomatch h), fun e he => ?_⟩
    injection he with he
    subst he
    have hne : w.project.events ≠ [] := by
      intro h
      have : w.ev ref ∈ w.project.events := world_mem r ht (List.mem_map.2 ⟨ref, f3, rfl⟩)
      rw [h] at this
      cases this
    obtain ⟨w', u, n1, n2⟩ := C90_nested r ht hne [212, 213]
    refine ⟨fun hk hp => ?_, fun p hp hk => ?_⟩
    · dsimp only
      rw [if_neg hk]
      have : types.find? (fun p => (w.ev ref).kind == p.kind) = none := by
        rw [List.find?_eq_none]
        intro p h
        simpa using hp p h
      rw [this]
    · refine ⟨w', u, ?_, n2⟩
      dsimp only
      rcases hp with hp | rfl
      · have hb : (w.ev ref).kind ≠ .unknown := by
          rw [hk]
          rcases hty with rfl | rfl
          · have : ∀ p ∈ instrumentPlugins, p.kind ≠ .unknown := by decide
            exact this p hp
          · have : ∀ p ∈ slotPlugins, p.kind ≠ .unknown := by decide
            exact this p hp
        have hf : types.find? (fun q => (w.ev ref).kind == q.kind) = some p := by
          rw [hk]
          rcases hty with rfl | rfl
          · have : ∀ p ∈ instrumentPlugins, instrumentPlugins.find? (fun q => p.kind == q.kind) = some p := by decide
            exact this p hp
          · have : ∀ p ∈ slotPlugins, slotPlugins.find? (fun q => p.kind == q.kind) = some p := by decide
            exact this p hp
        rw [if_neg hb, hf]
        unfold World.pluginEvents
        rw [n1]
      · rw [if_pos (show (w.ev ref).kind = .unknown from hk)]
        unfold World.pluginEvents
        rw [n1]
  · rw [f1, f2]
    exact ⟨fun _ => rfl, fun e he => by cases he⟩

/-! ## C91: assigning a plugin -/

theorem Heap.first_setRef {h : Heap} {u id a ref : Nat} (hf : h.first u id = .ok ref) :
    (h.setRef a ref).first u id = .ok ref := by
  have hc : ∀ b, (h.setRef a ref).cell b = if a = b ∧ b < h.cells.length then { h.cell a with ref := ref } else h.cell b := by
    intro b
    unfold Heap.setRef Heap.cell
    simp only [List.getD_eq_getElem?_getD, List.getElem?_set]
    by_cases hab : a = b
    · subst hab
      by_cases hl : a < h.cells.length
      · simp [hl]
      · simp [hl]
    · simp [hab]
  have hid : ∀ b, (h.setRef a ref).idOf b = h.idOf b := by
    intro b
    unfold Heap.idOf
    rw [hc]
    split
    · next hb => rw [← hb.1]
    · rfl
  have hl : (h.setRef a ref).lst u = h.lst u := rfl
  unfold Heap.first at hf ⊢
  rw [hl]
  simp only [hid]
  cases hb : (h.lst u).find? fun a => decide (h.idOf a = id) with
  | none => rw [hb] at hf; cases hf
  | some b =>
    rw [hb] at hf
    injection hf with hf
    show Except.ok _ = _
    rw [hc]
    split
    · rfl
    · rw [hf]

theorem Heap.cell_setRef {h : Heap} {a ref b : Nat} (ha : a < h.cells.length) :
    (h.setRef a ref).cell b = if a = b then { h.cell a with ref := ref } else h.cell b := by
  unfold Heap.setRef Heap.cell
  simp only [List.getD_eq_getElem?_getD, List.getElem?_set]
  by_cases hab : a = b
  · subst hab
    simp [ha]
  · simp [hab]

/-- What a loop of the assignment does: the `IndexedEvent`s with the id get the event object. -/
theorem Heap.replaceRefs_spec {u id ref : Nat} (h0 : id ≠ 0) (l : List Nat) {h : Heap} (hf : h.first u id = .ok ref) :
    ∃ h', h.replaceRefs u id l = (h', .ok ()) ∧ h'.trees = h.trees ∧
      (∀ b, h'.cell b = if b ∈ l ∧ h.idOf b = id then { h.cell b with ref := ref } else h.cell b) := by
  induction l generalizing h with
  | nil => exact ⟨h, rfl, rfl, fun b => by simp⟩
  | cons a l ih =>
    unfold Heap.replaceRefs
    by_cases ha : h.idOf a = id
    · rw [if_pos ha, hf]
      have hlt : a < h.cells.length := by
        apply Classical.byContradiction
        intro hl
        apply h0
        rw [← ha]
        unfold Heap.idOf Heap.cell
        rw [List.getD_eq_getElem?_getD, List.getElem?_eq_none (by omega)]
        rfl
      obtain ⟨h', e1, e2, e3⟩ := ih (Heap.first_setRef (a := a) hf)
      refine ⟨h', e1, e2, fun b => ?_⟩
      rw [e3]
      have hid : (h.setRef a ref).idOf b = h.idOf b := by
        unfold Heap.idOf
        rw [Heap.cell_setRef hlt]
        split
        · next hb => rw [hb]
        · rfl
      rw [hid, Heap.cell_setRef hlt]
      by_cases hab : a = b
      · subst hab
        simp [ha]
      · have : ¬ b = a := fun e => hab e.symm
        simp [hab, this]
    · rw [if_neg ha]
      obtain ⟨h', e1, e2, e3⟩ := ih hf
      refine ⟨h', e1, e2, fun b => ?_⟩
      rw [e3]
      by_cases hab : b = a
      · subst hab
        simp [ha]
      · simp [hab]

theorem Heap.replaceRefs_none {u id : Nat} {e : Exc} (l : List Nat) {h : Heap} (hf : h.first u id = .error e) :
    h.replaceRefs u id l = (h, if l.any fun a => decide (h.idOf a = id) then .error e else .ok ()) := by
  induction l with
  | nil => rfl
  | cons a l ih =>
    unfold Heap.replaceRefs
    by_cases ha : h.idOf a = id
    · rw [if_pos ha, hf]
      simp [ha]
    · rw [if_neg ha, ih]
      simp [ha]

theorem map_inj_nodup {α β : Type} {f : α → β} {l : List α} (hn : (l.map f).Nodup) {a b : α} (ha : a ∈ l) (hb : b ∈ l)
    (h : f a = f b) : a = b := by
  induction l with
  | nil => cases ha
  | cons x l ih =>
    rw [List.map_cons, List.nodup_cons] at hn
    rcases List.mem_cons.1 ha with rfl | ha'
    · rcases List.mem_cons.1 hb with rfl | hb'
      · rfl
      · exact absurd (List.mem_map.2 ⟨b, hb', h.symm⟩) hn.1
    · rcases List.mem_cons.1 hb with rfl | hb'
      · exact absurd (List.mem_map.2 ⟨a, ha', h⟩) hn.1
      · exact ih hn.2 ha' hb'

/-- Each event object is in one `IndexedEvent`. -/
theorem cell_mem {w : World} {L : Nat → Prop} (r : WReach w L) {t v a : Nat} (ht : L t) (hv : L v) (ha : a ∈ w.heap.lst v) :
    a ∈ w.heap.lst t ↔ (w.heap.cell a).ref ∈ w.refs t := by
  obtain ⟨g, _⟩ := reach_good (wreach_inv r).1
  constructor
  · exact fun h => List.mem_map.2 ⟨a, h, rfl⟩
  · intro h
    obtain ⟨b, hb, e⟩ := List.mem_map.1 h
    have hn : (w.refs 0).Nodup := (wreach_sub r ht).2
    have := map_inj_nodup (f := fun a => (w.heap.cell a).ref) hn ((g.sub t ht).mem hb) ((g.sub v hv).mem ha) e
    exact this ▸ hb

namespace Spec

/-- From `w` to `w'` every data event of the model `t` has been replaced by the event object `d`, and every wrapper event by
`wr`, in all models that have them. -/
structure Replaced (w w' : World) (L : Nat → Prop) (t d wr : Nat) : Prop where
  header : w'.format = w.format ∧ w'.channelCount = w.channelCount ∧ w'.ppq = w.ppq
  store : w'.store = w.store
  refs : ∀ v, L v → w'.refs v = (w.refs v).map fun x =>
    if x ∈ w.refs t ∧ (w.ev x).id = 213 then d else if x ∈ w.refs t ∧ (w.ev x).id = 212 then wr else x

end Spec

theorem cell_id {w : World} {L : Nat → Prop} (r : WReach w L) {v a : Nat} (hv : L v) (ha : a ∈ w.heap.lst v) :
    (w.ev (w.heap.cell a).ref).id = w.heap.idOf a :=
  (events_shown r hv ((w.heap.cell a).ref, (w.heap.cell a).id) (List.mem_map.2 ⟨a, ha, rfl⟩)).2

theorem first_congr {h h' : Heap} (ht : h'.trees = h.trees) {u id : Nat}
    (hc : ∀ a, (h'.cell a).id = (h.cell a).id ∧ (h.idOf a = id → h'.cell a = h.cell a)) : h'.first u id = h.first u id := by
  have hl : h'.lst u = h.lst u := by unfold Heap.lst Heap.tree; rw [ht]
  have hi : ∀ a, h'.idOf a = h.idOf a := fun a => (hc a).1
  unfold Heap.first
  rw [hl]
  simp only [hi]
  cases hb : (h.lst u).find? fun a => decide (h.idOf a = id) with
  | none => rfl
  | some b =>
    have := List.find?_some hb
    simp only [(hc b).2 (by simpa using this)]

theorem replacePlugin_spec {w : World} {L : Nat → Prop} (r : WReach w L) {t u d wr : Nat} (ht : L t)
    (hd : w.heap.first u 213 = .ok d) (hwr : w.heap.first u 212 = .ok wr) :
    ∃ w', w.replacePlugin t u = (w', .ok ()) ∧ Replaced w w' L t d wr ∧ w'.heap.trees = w.heap.trees ∧
      (∀ a, (w'.heap.cell a).id = (w.heap.cell a).id ∧ (w'.heap.cell a).r = (w.heap.cell a).r) ∧
      (∀ a ∈ w.heap.lst t, (w'.heap.cell a).ref = if w.heap.idOf a = 213 then d else if w.heap.idOf a = 212 then wr else
        (w.heap.cell a).ref) := by
  obtain ⟨h1, e1, e2, e3⟩ := Heap.replaceRefs_spec (id := 213) (by decide) (w.heap.lst t) hd
  have hf : h1.first u 212 = .ok wr := by
    rw [first_congr (h := w.heap) e2 fun a => ⟨by rw [e3]; split <;> rfl, fun ha => by
      rw [e3, if_neg (by rw [ha]; simp)]⟩]
    exact hwr
  obtain ⟨h2, g1, g2, g3⟩ := Heap.replaceRefs_spec (id := 212) (by decide) (h1.lst t) hf
  have hl : ∀ v, h1.lst v = w.heap.lst v := fun v => by unfold Heap.lst Heap.tree; rw [e2]
  have hid : ∀ b, h1.idOf b = w.heap.idOf b := fun b => by unfold Heap.idOf; rw [e3]; split <;> rfl
  have hcell : ∀ b, h2.cell b = if b ∈ w.heap.lst t ∧ w.heap.idOf b = 213 then { w.heap.cell b with ref := d } else
      if b ∈ w.heap.lst t ∧ w.heap.idOf b = 212 then { w.heap.cell b with ref := wr } else w.heap.cell b := by
    intro b
    rw [g3, hid, e3, hl]
    by_cases h3 : w.heap.idOf b = 213
    · simp [h3]
    · simp [h3]
  refine ⟨{ w with heap := h2 }, ?_, ⟨⟨rfl, rfl, rfl⟩, rfl, fun v hv => ?_⟩, g2.trans e2, fun a => ?_, fun a ha => ?_⟩
  · unfold World.replacePlugin
    rw [e1]
    dsimp only
    rw [g1]
  · unfold World.refs
    have hlst : h2.lst v = w.heap.lst v := by unfold Heap.lst Heap.tree; rw [g2, e2]
    dsimp only
    rw [hlst, List.map_map]
    apply List.map_congr_left
    intro a ha
    dsimp only [Function.comp]
    have hm := cell_mem r ht hv ha
    unfold World.refs at hm
    rw [cell_id r hv ha, hcell]
    simp only [← hm]
    split
    · rfl
    · split <;> rfl
  · dsimp only
    rw [hcell]
    split
    · exact ⟨rfl, rfl⟩
    · split <;> exact ⟨rfl, rfl⟩
  · dsimp only
    rw [hcell]
    simp only [ha, true_and]
    split
    · rfl
    · split <;> rfl


theorem setPlugin_name {w : World} {L : Nat → Prop} (r : WReach w L) {t : Nat} (ht : L t) {p : PluginType}
    (hn : p = .base ∨ (valueOf (w.events t) 201).isSome) :
    ∃ w1, WReach w1 L ∧ w1.heap = w.heap ∧ (∀ x, (w1.ev x).id = (w.ev x).id ∧ (w1.ev x).kind = (w.ev x).kind) ∧
      (p = .base → w1 = w) ∧ (∀ name, p.internalName = some name → Assigned w w1 L t 201 (.str name)) ∧
      ∀ u, w.setPlugin t (p, u) = w1.replacePlugin t u := by
  by_cases hb : p = .base
  · subst hb
    exact ⟨w, r, rfl, fun _ => ⟨rfl, rfl⟩, fun _ => rfl, fun _ h => (nomatch h), fun _ => rfl⟩
  · obtain ⟨name, hname⟩ : ∃ name, p.internalName = some name := by
      cases p <;> first | exact ⟨_, rfl⟩ | exact absurd rfl hb
    have hs : (valueOf (w.events t) 201).isSome := by
      rcases hn with h | h
      · exact absurd h hb
      · exact h
    obtain ⟨ref, e1, -, e3⟩ := eventProp_write r ht hs
    obtain ⟨e3, e4⟩ := e3 (.str name)
    refine ⟨w.setEv ref { w.ev ref with value := .str name }, e4.reach, rfl, fun x => ?_, fun h => absurd h hb, fun n hn' => ?_,
      fun u => ?_⟩
    · rw [World.ev_setEv]
      split
      · next h => rw [← h.1]; exact ⟨rfl, rfl⟩
      · exact ⟨rfl, rfl⟩
    · rw [hname] at hn'
      cases hn'
      exact e4
    · unfold World.setPlugin
      dsimp only
      rw [hname]
      dsimp only
      rw [e3]

/-- C91, assigning a plugin of the same project which has data and a wrapper, to a channel or slot with an internal name: the
name becomes the one of the class (if it has one), and all data and wrapper events of the target are replaced by those of the
plugin, everywhere in the project.  If the target had plugin data, the plugin read back has the assigned class and the assigned
events.  Missing: targets without a name or data (`C91_lost_refuted`), plugins without a wrapper (`C91_half_refuted`), and
independence of the two plugins (`C91_shared_refuted`). -/
theorem C91_set_partial {w : World} {L : Nat → Prop} (r : WReach w L) {t u : Nat} (ht : L t) (hu : L u) {p : PluginType}
    {ed ew : Event} (hd : (w.events u).find? (fun e => e.id == 213) = some ed)
    (hw : (w.events u).find? (fun e => e.id == 212) = some ew)
    (hn : p = .base ∨ (valueOf (w.events t) 201).isSome) :
    ∃ w1 w' d wr, w.setPlugin t (p, u) = (w', .ok ()) ∧ d ∈ w.refs u ∧ w.ev d = ed ∧ wr ∈ w.refs u ∧ w.ev wr = ew ∧
      (p = .base → w1 = w) ∧ (∀ name, p.internalName = some name → Assigned w w1 L t 201 (.str name)) ∧
      Replaced w1 w' L t d wr ∧
      ∀ types, types = instrumentPlugins ∨ types = slotPlugins → p ∈ types ∨ p = .base → ed.kind = p.kind →
        (valueOf (w.events t) 213).isSome →
        ∃ w'' u', w'.pluginOf t types = (w'', some (p, u')) ∧ w''.store = w'.store ∧
          w''.refs u' = ((w.refs t).filter fun x => decide ((w.ev x).id ∈ [212, 213])).map
            fun x => if (w.ev x).id = 213 then d else wr := by
  obtain ⟨w1, r1, hh, hid, n1, n2, n3⟩ := setPlugin_name r ht hn
  have hd' : ∃ d, w.heap.first u 213 = .ok d ∧ w.ev d = ed ∧ d ∈ w.refs u := by
    rcases first_find r hu 213 with ⟨d, f1, f2, f3, _⟩ | ⟨_, f2⟩
    · rw [hd] at f2
      exact ⟨d, f1, (Option.some.inj f2).symm, f3⟩
    · rw [hd] at f2; cases f2
  have hw' : ∃ d, w.heap.first u 212 = .ok d ∧ w.ev d = ew ∧ d ∈ w.refs u := by
    rcases first_find r hu 212 with ⟨d, f1, f2, f3, _⟩ | ⟨_, f2⟩
    · rw [hw] at f2
      exact ⟨d, f1, (Option.some.inj f2).symm, f3⟩
    · rw [hw] at f2; cases f2
  obtain ⟨d, d1, d2, d3⟩ := hd'
  obtain ⟨wr, x1, x2, x3⟩ := hw'
  obtain ⟨w', e1, e2, e3, e4, e5⟩ := replacePlugin_spec r1 ht (u := u) (d := d) (wr := wr) (by rw [hh]; exact d1)
    (by rw [hh]; exact x1)
  refine ⟨w1, w', d, wr, (n3 u).trans e1, d3, d2, x3, x2, n1, n2, e2, fun types hty hp hk h213 => ?_⟩
  obtain ⟨g, _⟩ := reach_good (wreach_inv r1).1
  have hl : w'.heap.lst t = w1.heap.lst t := by unfold Heap.lst Heap.tree; rw [e3]
  have hshown : shown w'.heap t = (shown w1.heap t).map fun x =>
      (if x.2 = 213 then d else if x.2 = 212 then wr else x.1, x.2) := by
    unfold shown
    rw [hl, List.map_map]
    apply List.map_congr_left
    intro a ha
    rw [e5 a ha, (e4 a).1]
    rfl
  have hev : ∀ x, (w'.ev x).kind = (w.ev x).kind := fun x => by
    have : w'.ev x = w1.ev x := by unfold World.ev; rw [e2.store]
    rw [this, (hid x).2]
  have hfirst : w'.heap.first t 213 = .ok d := by
    rcases first_spec w'.heap t 213 with ⟨pre, post, ref, h1, h2, h3⟩ | ⟨h1, h2⟩
    · rw [h1]
      have : (ref, 213) ∈ shown w'.heap t := by rw [h2]; simp
      rw [hshown] at this
      obtain ⟨y, _, hy⟩ := List.mem_map.1 this
      injection hy with y1 y2
      rw [if_pos y2] at y1
      rw [y1]
    · exfalso
      rcases World.first_value r ht 213 with ⟨ref, f1, _⟩ | ⟨_, f2⟩
      · rcases first_spec w.heap t 213 with ⟨pre, post, ref', g1, g2, g3⟩ | ⟨g1, g2⟩
        · refine h2 (d, 213) ?_ rfl
          rw [hshown, hh, g2]
          simp
        · rw [f1] at g1; cases g1
      · rw [f2] at h213; cases h213
  have hlt : t < w'.heap.trees.length := by rw [e3]; exact g.lt t ht
  have hsort : w'.heap.Sorted (w'.heap.lst t) := by
    have := g.sorted ht
    unfold Heap.Sorted at this ⊢
    rw [hl]
    refine this.imp fun {a b} hab => ?_
    have hr : ∀ a, w'.heap.r a = w1.heap.r a := fun a => (e4 a).2
    simpa only [hr] using hab
  obtain ⟨m1, m2, m3, -⟩ := nested_raw w' hlt hsort [212, 213]
  refine ⟨(w'.pluginEvents t).1, (w'.pluginEvents t).2, ?_, m3, ?_⟩
  · unfold World.pluginOf
    rw [hfirst]
    dsimp only
    rw [hev, d2, hk]
    rcases hp with hp | rfl
    · have hb : p.kind ≠ .unknown := by
        rcases hty with rfl | rfl
        · have : ∀ p ∈ instrumentPlugins, p.kind ≠ .unknown := by decide
          exact this p hp
        · have : ∀ p ∈ slotPlugins, p.kind ≠ .unknown := by decide
          exact this p hp
      have hf : types.find? (fun q => p.kind == q.kind) = some p := by
        rcases hty with rfl | rfl
        · have : ∀ p ∈ instrumentPlugins, instrumentPlugins.find? (fun q => p.kind == q.kind) = some p := by decide
          exact this p hp
        · have : ∀ p ∈ slotPlugins, slotPlugins.find? (fun q => p.kind == q.kind) = some p := by decide
          exact this p hp
      rw [if_neg hb, hf]
    · rw [if_pos (show PluginType.base.kind = .unknown from rfl)]
  · show (nestedProp [212, 213] w' t).1.refs (nestedProp [212, 213] w' t).2 = _
    rw [World.refs_eq, m1, hshown, List.filter_map, List.map_map, World.refs_eq, ← hh, List.filter_map, List.map_map]
    have hx : (shown w1.heap t).filter ((fun x => decide (x.2 ∈ [212, 213])) ∘ fun x : Nat × Nat =>
        (if x.2 = 213 then d else if x.2 = 212 then wr else x.1, x.2)) =
        (shown w1.heap t).filter ((fun x => decide ((w.ev x).id ∈ [212, 213])) ∘ Prod.fst) := by
      apply List.filter_congr
      intro x hx
      have := (events_shown r1 ht x hx).2
      rw [(hid x.1).1] at this
      show decide (x.2 ∈ [212, 213]) = decide ((w.ev x.1).id ∈ [212, 213])
      rw [this]
    rw [hx]
    apply List.map_congr_left
    intro x hx
    obtain ⟨hx1, hx2⟩ := List.mem_filter.1 hx
    have := (events_shown r1 ht x hx1).2
    rw [(hid x.1).1] at this
    dsimp only [Function.comp] at hx2 ⊢
    rw [this] at hx2 ⊢
    simp only [List.mem_cons, List.not_mem_nil, or_false, decide_eq_true_eq] at hx2
    rcases hx2 with h | h <;> rw [h] <;> simp


/-- C91: without an internal name, assigning a plugin with a class raises `PropertyCannotBeSet`; nothing changes. -/
theorem C91_unnamed {w : World} {L : Nat → Prop} (r : WReach w L) {t : Nat} (ht : L t) {p : PluginType} (hp : p ≠ .base)
    (hn : valueOf (w.events t) 201 = none) (u : Nat) : w.setPlugin t (p, u) = (w, .error .propertyCannotBeSet) := by
  obtain ⟨name, hname⟩ : ∃ name, p.internalName = some name := by
    cases p <;> first | exact ⟨_, rfl⟩ | exact absurd rfl hp
  unfold World.setPlugin
  dsimp only
  rw [hname]
  have : (eventProp [201]).write w t (.str name) = (w, .error .propertyCannotBeSet) := by
    rcases single_event r ht 201 with ⟨ref, f1, f4, f2, f3⟩ | ⟨f1, f2⟩
    · rw [hn] at f2; cases f2
    · unfold Descr.write
      rw [if_neg (by simp [eventProp]), show (eventProp [201]).ids = [201] from rfl, f1]
  dsimp only
  rw [this]

theorem first_none {w : World} {L : Nat → Prop} (r : WReach w L) {t : Nat} (ht : L t) {id : Nat}
    (h : valueOf (w.events t) id = none) : ∀ a ∈ w.heap.lst t, w.heap.idOf a ≠ id := by
  intro a ha hid
  unfold valueOf at h
  rw [Option.map_eq_none_iff, List.find?_eq_none] at h
  have := h (w.ev (w.heap.cell a).ref) (List.mem_map.2 ⟨_, List.mem_map.2 ⟨a, ha, rfl⟩, rfl⟩)
  rw [cell_id r ht ha] at this
  simp [hid] at this

/-- C91 is false for a target without plugin data: the assignment is lost without an exception (`plugin` stays `None`). -/
theorem C91_lost_refuted {w : World} {L : Nat → Prop} (r : WReach w L) {t u : Nat} (ht : L t) (hu : L u) {p : PluginType}
    {ed ew : Event} (hd : (w.events u).find? (fun e => e.id == 213) = some ed)
    (hw : (w.events u).find? (fun e => e.id == 212) = some ew)
    (hn : p = .base ∨ (valueOf (w.events t) 201).isSome) (h213 : valueOf (w.events t) 213 = none) (types : List PluginType) :
    ∃ w', w.setPlugin t (p, u) = (w', .ok ()) ∧ w'.pluginOf t types = (w', none) := by
  obtain ⟨w1, r1, hh, hid, n1, n2, n3⟩ := setPlugin_name r ht hn
  obtain ⟨d, d1⟩ : ∃ d, w.heap.first u 213 = .ok d := by
    rcases first_find r hu 213 with ⟨d, f1, _⟩ | ⟨_, f2⟩
    · exact ⟨d, f1⟩
    · rw [hd] at f2; cases f2
  obtain ⟨wr, x1⟩ : ∃ d, w.heap.first u 212 = .ok d := by
    rcases first_find r hu 212 with ⟨d, f1, _⟩ | ⟨_, f2⟩
    · exact ⟨d, f1⟩
    · rw [hw] at f2; cases f2
  obtain ⟨w', e1, e2, e3, e4, e5⟩ := replacePlugin_spec r1 ht (u := u) (d := d) (wr := wr) (by rw [hh]; exact d1)
    (by rw [hh]; exact x1)
  refine ⟨w', (n3 u).trans e1, ?_⟩
  have hf : w'.heap.first t 213 = .error .keyError := by
    unfold Heap.first
    have hl : w'.heap.lst t = w.heap.lst t := by unfold Heap.lst Heap.tree; rw [e3, hh]
    have : (w'.heap.lst t).find? (fun a => decide (w'.heap.idOf a = 213)) = none := by
      rw [List.find?_eq_none, hl]
      intro a ha
      have h1 := first_none r ht h213 a ha
      have h2 : w'.heap.idOf a = w.heap.idOf a := by
        unfold Heap.idOf
        rw [(e4 a).1, hh]
      rw [h2]
      simpa using h1
    rw [this]
  unfold World.pluginOf
  rw [hf]

/-- C91 is false of independence: afterwards both plugins have the same event objects, so that every later change of the data
of one of them changes the other. -/
theorem C91_shared_refuted {w : World} {L : Nat → Prop} (r : WReach w L) {t u : Nat} (ht : L t) (hu : L u) {p : PluginType}
    {ed ew : Event} (hd : (w.events u).find? (fun e => e.id == 213) = some ed)
    (hw : (w.events u).find? (fun e => e.id == 212) = some ew)
    (hn : p = .base ∨ (valueOf (w.events t) 201).isSome) (h213 : (valueOf (w.events t) 213).isSome) :
    ∃ w' d, w.setPlugin t (p, u) = (w', .ok ()) ∧ w.ev d = ed ∧
      ∀ e, e ∈ (w'.setEv d e).events t ∧ e ∈ (w'.setEv d e).events u := by
  obtain ⟨w1, w', d, wr, s1, s2, s3, s4, s5, s6, s7, s8, -⟩ := C91_set_partial r ht hu hd hw hn
  obtain ⟨w1', r1, hh, hid, n1, n2, n3⟩ := setPlugin_name r ht hn
  have hid1 : (∀ v, w1.refs v = w.refs v) ∧ ∀ x, (w1.ev x).id = (w.ev x).id := by
    by_cases hp : p = .base
    · rw [s6 hp]; exact ⟨fun _ => rfl, fun _ => rfl⟩
    · obtain ⟨name, hname⟩ : ∃ name, p.internalName = some name := by
        cases p <;> first | exact ⟨_, rfl⟩ | exact absurd rfl hp
      have := (s7 name hname).changedOnly (ids := [201]) (by simp)
      refine ⟨fun v => changedOnly_refs this v, fun x => ?_⟩
      obtain ⟨y, hy, _⟩ := this.store x
      rw [hy]
  have hdid : (w.ev d).id = 213 := by
    have := List.find?_some hd
    rw [s3]
    simpa using this
  have hdu : d ∈ w'.refs u := by
    rw [s8.refs u hu]
    refine List.mem_map.2 ⟨d, by rw [hid1.1]; exact s2, ?_⟩
    split
    · rfl
    · rw [if_neg]
      rw [hid1.2, hdid]
      simp
  have hdt : d ∈ w'.refs t := by
    obtain ⟨x, hx1, hx2⟩ : ∃ x ∈ w.refs t, (w.ev x).id = 213 := by
      rcases first_find r ht 213 with ⟨x, f1, f2, f3, f4⟩ | ⟨_, f2⟩
      · exact ⟨x, f3, f4⟩
      · unfold valueOf at h213
        rw [f2] at h213
        cases h213
    rw [s8.refs t ht, hid1.1]
    refine List.mem_map.2 ⟨x, hx1, ?_⟩
    rw [if_pos ⟨hx1, by rw [hid1.2, hx2]⟩]
  have hlt : d < w'.store.length := by
    have hlen : w1.store.length = w.store.length := by
      by_cases hp : p = .base
      · rw [s6 hp]
      · obtain ⟨name, hname⟩ : ∃ name, p.internalName = some name := by
          cases p <;> first | exact ⟨_, rfl⟩ | exact absurd rfl hp
        obtain ⟨ref, -, -, h⟩ := (s7 name hname).only
        rw [h]
        exact List.length_set
    rw [s8.store, hlen]
    obtain ⟨a, ha, hr⟩ := List.mem_map.1 s2
    rw [← hr]
    exact (events_shown r hu ((w.heap.cell a).ref, (w.heap.cell a).id) (List.mem_map.2 ⟨a, ha, rfl⟩)).1
  refine ⟨w', d, s1, s3, fun e => ⟨?_, ?_⟩⟩
  · exact List.mem_map.2 ⟨d, hdt, by rw [World.ev_setEv, if_pos ⟨rfl, hlt⟩]⟩
  · exact List.mem_map.2 ⟨d, hdu, by rw [World.ev_setEv, if_pos ⟨rfl, hlt⟩]⟩

/-- C91 is false for a plugin without a wrapper: `KeyError` is raised after the data has been replaced. -/
theorem C91_half_refuted {w : World} {L : Nat → Prop} (r : WReach w L) {t u : Nat} (ht : L t) (hu : L u) {p : PluginType}
    {ed : Event} (hd : (w.events u).find? (fun e => e.id == 213) = some ed)
    (hw : (w.events u).find? (fun e => e.id == 212) = none)
    (hn : p = .base ∨ (valueOf (w.events t) 201).isSome) (h213 : (valueOf (w.events t) 213).isSome)
    (h212 : (valueOf (w.events t) 212).isSome) :
    ∃ w' d, w.setPlugin t (p, u) = (w', .error .keyError) ∧ d ∈ w.refs u ∧ w.ev d = ed ∧ d ∈ w'.refs t := by
  obtain ⟨w1, r1, hh, hid, n1, n2, n3⟩ := setPlugin_name r ht hn
  obtain ⟨d, d1, d2, d3⟩ : ∃ d, w.heap.first u 213 = .ok d ∧ w.ev d = ed ∧ d ∈ w.refs u := by
    rcases first_find r hu 213 with ⟨d, f1, f2, f3, _⟩ | ⟨_, f2⟩
    · rw [hd] at f2
      exact ⟨d, f1, (Option.some.inj f2).symm, f3⟩
    · rw [hd] at f2; cases f2
  have x1 : w.heap.first u 212 = .error .keyError := by
    rcases first_find r hu 212 with ⟨d, _, f2, _⟩ | ⟨f1, _⟩
    · rw [hw] at f2; cases f2
    · exact f1
  have some_cell : ∀ id, (valueOf (w.events t) id).isSome → ∃ a ∈ w.heap.lst t, w.heap.idOf a = id := by
    intro id h
    rcases first_find r ht id with ⟨x, _, _, f3, f4⟩ | ⟨_, f2⟩
    · obtain ⟨a, ha, rfl⟩ := List.mem_map.1 f3
      exact ⟨a, ha, by rw [← cell_id r ht ha, f4]⟩
    · unfold valueOf at h
      rw [f2] at h
      cases h
  obtain ⟨h1, e1, e2, e3⟩ := Heap.replaceRefs_spec (id := 213) (by decide) (w.heap.lst t) d1
  have hf : h1.first u 212 = .error .keyError := by
    rw [first_congr (h := w.heap) e2 fun a => ⟨by rw [e3]; split <;> rfl, fun ha => by
      rw [e3, if_neg (by rw [ha]; simp)]⟩]
    exact x1
  have hl : h1.lst t = w.heap.lst t := by unfold Heap.lst Heap.tree; rw [e2]
  refine ⟨{ w1 with heap := h1 }, d, ?_, d3, d2, ?_⟩
  · rw [n3]
    unfold World.replacePlugin
    rw [hh, e1]
    dsimp only
    rw [Heap.replaceRefs_none _ hf, if_pos]
    rw [List.any_eq_true, hl]
    obtain ⟨a, ha, hida⟩ := some_cell 212 h212
    refine ⟨a, ha, ?_⟩
    have : h1.idOf a = w.heap.idOf a := by unfold Heap.idOf; rw [e3]; split <;> rfl
    rw [this, hida]
    rfl
  · obtain ⟨a, ha, hida⟩ := some_cell 213 h213
    unfold World.refs
    dsimp only
    rw [hl]
    refine List.mem_map.2 ⟨a, ha, ?_⟩
    rw [e3, if_pos ⟨ha, hida⟩]

/-- C91 is false for a plugin whose data has been removed: `KeyError` is raised after the internal name has been changed; nothing
else changes. -/
theorem C91_dataless_refuted {w : World} {L : Nat → Prop} (r : WReach w L) {t u : Nat} (ht : L t) (hu : L u) {p : PluginType}
    (hd : (w.events u).find? (fun e => e.id == 213) = none) {name : PStr} (hname : p.internalName = some name)
    (hn : (valueOf (w.events t) 201).isSome) (h213 : (valueOf (w.events t) 213).isSome) :
    ∃ w', w.setPlugin t (p, u) = (w', .error .keyError) ∧ Assigned w w' L t 201 (.str name) := by
  obtain ⟨w1, r1, hh, hid, n1, n2, n3⟩ := setPlugin_name r ht (p := p) (.inr hn)
  have x1 : w.heap.first u 213 = .error .keyError := by
    rcases first_find r hu 213 with ⟨d, _, f2, _⟩ | ⟨f1, _⟩
    · rw [hd] at f2; cases f2
    · exact f1
  refine ⟨w1, ?_, n2 name hname⟩
  rw [n3]
  unfold World.replacePlugin
  rw [hh, Heap.replaceRefs_none _ x1, if_pos]
  · dsimp only
    rw [← hh]
  · rw [List.any_eq_true]
    rcases first_find r ht 213 with ⟨x, _, _, f3, f4⟩ | ⟨_, f2⟩
    · obtain ⟨a, ha, rfl⟩ := List.mem_map.1 f3
      refine ⟨a, ha, ?_⟩
      rw [← cell_id r ht ha, f4]
      rfl
    · unfold valueOf at h213
      rw [f2] at h213
      cases h213


namespace Demo

/-- Two channels with plugins: a known one and one without a class. -/
def plugins : Project := ⟨0, 2, 96, [⟨199, .ascii, .str (PStr.lit "20.8.3"), 7⟩,
  ⟨64, .u16, .lv (.int 0), 2⟩, ⟨201, .unicode, .str (PStr.lit "BooBass"), 16⟩, wrapper none 16,
  ⟨213, .struct .booBass, .fields [("_u1", some (.bytes [0, 0, 0, 0])), ("bass", some (.int 7)),
      ("mid", some (.int 0)), ("high", some (.int 0))], 16⟩,
  ⟨64, .u16, .lv (.int 1), 2⟩, ⟨201, .unicode, .str (PStr.lit "Sytrus"), 14⟩, wrapper none 16, ⟨213, .unknown, .bytes zeros, 16⟩]⟩

/-- The project with the models of its channels. -/
def pluginWorld : World × List Nat :=
  let r := (World.ofProject plugins).heap.divide 0 64 [64, 201, 212, 213]
  ({ World.ofProject plugins with heap := r.1 }, r.2)

theorem pluginWorld_reach : WReach pluginWorld.1 (fun u => u = 0 ∨ u ∈ [1, 2]) :=
  .view (.parsed plugins) rfl (by decide +kernel) (.divide 64 [64, 201, 212, 213])

end Demo

/-- The hypotheses of `C91_dataless_refuted` can be met: the data of the first channel is removed. -/
example : ∃ w L, WReach w L ∧ L 1 ∧ L 2 ∧ (w.events 1).find? (fun e => e.id == 213) = none ∧
    (valueOf (w.events 2) 201).isSome ∧ (valueOf (w.events 2) 213).isSome ∧
    PluginType.booBass.internalName = some (PStr.lit "BooBass") ∧ (w.setPlugin 2 (.booBass, 1)).2 = .error .keyError := by
  have hp : Demo.pluginWorld.1.heap.pop 1 213 0 = ((Demo.pluginWorld.1.heap.pop 1 213 0).1, .ok 4) := by
    have : (Demo.pluginWorld.1.heap.pop 1 213 0).2 = .ok 4 := by decide +kernel
    rw [← this]
  refine ⟨_, _, .pop Demo.pluginWorld_reach (.inr (by decide)) hp, ⟨.inr (by decide), by decide +kernel⟩,
    ⟨.inr (by decide), by decide +kernel⟩, by decide +kernel, by decide +kernel, by decide +kernel, rfl, by decide +kernel⟩

/-- The hypotheses of the C90 and C91 theorems can be met. -/
example : Demo.pluginWorld.1.project.events ≠ [] ∧
    (Demo.pluginWorld.1.pluginOf 1 instrumentPlugins).2 = some (.booBass, 3) ∧
    (Demo.pluginWorld.1.pluginOf 2 instrumentPlugins).2 = some (.base, 3) ∧
    ((Demo.pluginWorld.1.events 1).find? (fun e => e.id == 213)).map Event.kind = some PluginType.booBass.kind ∧
    ((Demo.pluginWorld.1.events 1).find? (fun e => e.id == 212)).isSome ∧
    (valueOf (Demo.pluginWorld.1.events 2) 201).isSome ∧ (valueOf (Demo.pluginWorld.1.events 2) 213).isSome ∧
    (Demo.pluginWorld.1.setPlugin 2 (.booBass, 1)).2 = .ok () ∧
    ((Demo.pluginWorld.1.setPlugin 2 (.booBass, 1)).1.pluginOf 2 instrumentPlugins).2 = some (.booBass, 3) := by
  decide +kernel

/-- C91 is false of plugins without a class: `bass_channel.plugin = sytrus_channel.plugin` leaves the internal name as it is,
so that no file gives back the project with its plugin. -/
theorem C91_base_refuted [FloatEnv] : ∃ w w' : World, ∃ t u : Nat, ∃ L, WReach w L ∧ L t ∧ L u ∧ Spec.WellTyped w.project.events ∧
    w.setPlugin t (.base, u) = (w', .ok ()) ∧
    ∀ file q, parseFile file = .ok q → q.events.map observe ≠ w'.project.events.map observe := by
  refine ⟨Demo.pluginWorld.1, (Demo.pluginWorld.1.setPlugin 1 (.base, 2)).1, 1, 2, _, Demo.pluginWorld_reach, by simp, by simp, ?_, ?_,
    fun file q hq h => ?_⟩
  · exact Demo.wellTyped_of (by decide +kernel)
  · rfl
  · have hwt := (C04_parsed_wellTyped file q hq).1
    have he : (Demo.pluginWorld.1.setPlugin 1 (.base, 2)).1.project.events =
        [⟨199, .ascii, .str (PStr.lit "20.8.3"), 7⟩, ⟨64, .u16, .lv (.int 0), 2⟩,
          ⟨201, .unicode, .str (PStr.lit "BooBass"), 16⟩, Demo.wrapper none 16, ⟨213, .unknown, .bytes Demo.zeros, 16⟩] ++
        Demo.plugins.events.drop 5 := rfl
    rw [he] at h
    obtain ⟨a, b, hab, ha, hb⟩ := List.map_eq_append_iff.1 (h.trans List.map_append)
    simp only [List.map_eq_cons_iff, List.map_cons, List.map_nil, List.map_eq_nil_iff] at ha
    obtain ⟨e1, l1, rfl, q1, e2, l2, rfl, q2, e3, l3, rfl, q3, e4, l4, rfl, q4, e5, l5, rfl, q5, rfl⟩ := ha
    obtain ⟨i1, k1, v1, n1⟩ := e1
    obtain ⟨i2, k2, v2, n2⟩ := e2
    obtain ⟨i3, k3, v3, n3⟩ := e3
    obtain ⟨i4, k4, v4, n4⟩ := e4
    obtain ⟨i5, k5, v5, n5⟩ := e5
    cases q1
    cases q2
    cases q3
    cases q4
    cases q5
    obtain ⟨-, hk, -⟩ := hwt [_, _, _, _] _ b (by rw [hab]; rfl)
    have : kindOf [⟨199, .ascii, .str (PStr.lit "20.8.3"), n1⟩, ⟨64, .u16, .lv (.int 0), n2⟩,
        ⟨201, .unicode, .str (PStr.lit "BooBass"), n3⟩, Demo.wrapper none n4] 213 = some (.struct .booBass) := by
      rfl
    exact absurd (hk.symm.trans this) (by simp)

end PyFLP
