import Verif.Lookups
import Verif.SaveCall
import Verif.Texts
import Verif.Prints
import Verif.Reprs
import Verif.Containers
import Verif.Equality
import Verif.Tracks
import Verif.ChannelProps
import Verif.Plugins
import Verif.PropTable
import Verif.ProjectLemmas
import Verif.Props.Patterns
import Verif.RoundTrip
/-!
# C148: looking at a project does not change it

Many attributes of this library make event trees when they are only read, and register them with the trees they are made of
(`_events.py:396-404, 418-433, 553-567`).  None of this may be seen in the file, in other objects or in the effect of later edits.
Functions of the model that do not return a `World` change nothing by their type.
-/

namespace PyFLP

open Spec Heap

namespace Spec

/-- Everything that existed before is as it was: the header values, the event objects with their values, the entries of trees with
their positions, and for each tree its list, its parent and its root.  There may be more trees, and the trees may have more
children. -/
structure AsBefore (w w' : World) : Prop where
  format : w'.format = w.format
  channelCount : w'.channelCount = w.channelCount
  ppq : w'.ppq = w.ppq
  store : w'.store = w.store
  cells : w'.heap.cells = w.heap.cells
  more : w.heap.trees.length ≤ w'.heap.trees.length
  lists : ∀ t, t < w.heap.trees.length → w'.heap.lst t = w.heap.lst t
  parents : ∀ t, t < w.heap.trees.length → w'.heap.parent t = w.heap.parent t
  roots : ∀ t, t < w.heap.trees.length → w'.heap.root t = w.heap.root t

/-- One call that reads, with the state before and after.  The arguments are arbitrary, and it does not matter whether the call
raises. -/
inductive Look : World → World → Prop
  /-- `subtree`, `separate`, `divide`, `subtrees` and `group` of event trees -/
  | view (w : World) (t : Nat) (call : ViewCall) : Look w { w with heap := (view w.heap t call).1 }
  /-- one `next()` of a generator of one of them, or of an iterator over patterns -/
  | next (w : World) (t : Nat) (g : Generator) (s : g.σ) : Look w (w.next t g s).1
  /-- `project.channels`, `.patterns`, `.arrangements`, `.mixer` -/
  | channels (w : World) : Look w w.channels.1
  | patterns (w : World) : Look w w.patterns.1
  | arrangements (w : World) : Look w w.arrangements.1
  | mixer (w : World) : Look w w.mixer.1
  /-- models of one model's events: `channel.delay`, `slot.plugin`, … -/
  | nested (w : World) (ids : List Nat) (t : Nat) : Look w (nestedProp ids w t).1
  | plugin (w : World) (t : Nat) (types : List PluginType) : Look w (w.pluginOf t types).1
  | tracking (w : World) (u : Nat) : Look w (w.tracking u).1
  | envelopes (w : World) (u : Nat) : Look w (w.envelopes u).1
  | timeMarkers (w : World) (u : Nat) : Look w (w.timeMarkers u).1
  /-- loops over collections -/
  | loopPatterns (w : World) (t : Nat) : Look w (w.iterPatterns t).1
  | loopArrangements (w : World) (t : Nat) : Look w (w.iterArrangements t).1
  | loopInserts (w : World) (t : Nat) (v : FLVersion) : Look w (w.iterInserts t v).1
  | loopSlots (w : World) (t : Nat) (params : Bool) : Look w (w.iterSlots t params).1
  | loopRack (w : World) (t : Nat) : Look w (w.iterRack t).1
  | loopClass (w : World) (t : Nat) (cls : ChClass) : Look w (w.iterClass t cls).1
  | loopGroups (w : World) (t : Nat) : Look w (w.iterGroups t).1
  | loopTracks (w : World) (u ct pt : Nat) (v : FLVersion) : Look w (w.iterTracks u ct pt v).1
  /-- subscripts, all models made first or only those up to the one found -/
  | getPattern (w : World) (t : Nat) (i : Subscript) : Look w (w.getPattern t i).1
  | getArrangement (w : World) (t : Nat) (i : Subscript) : Look w (w.getArrangement t i).1
  | getInsert (w : World) (t : Nat) (v : FLVersion) (i : Subscript) : Look w (w.getInsert t v i).1
  | getSlot (w : World) (t : Nat) (params : Bool) (i : Subscript) : Look w (w.getSlot t params i).1
  | getChannel (w : World) (t : Nat) (i : Subscript) : Look w (w.getChannel t i).1
  | findPattern {w t i w' res} (h : w.PatternLookup t i w' res) : Look w w'
  | findCurrent {w t v w' res} (h : w.CurrentLookup t v w' res) : Look w w'
  | findArrangement {w t n i w' res} (h : w.ArrangementLookup t n i w' res) : Look w w'
  | findInsert {w t v i w' res} (h : w.InsertLookup t v i w' res) : Look w w'
  | findSlot {w t i w' res} (h : w.SlotLookup t i w' res) : Look w w'
  | findChannel {w t i w' res} (h : w.ChannelLookup t i w' res) : Look w w'
  /-- slices -/
  | slicePatterns (w : World) (t : Nat) (a b : Option Int) : Look w (w.slicePatterns t a b).1
  | sliceArrangements (w : World) (t : Nat) (a b : Option Int) : Look w (w.sliceArrangements t a b).1
  | sliceInserts (w : World) (t : Nat) (v : FLVersion) (a b : Option Int) : Look w (w.sliceInserts t v a b).1
  | sliceSlots (w : World) (t : Nat) (params : Bool) (a b : Option Int) : Look w (w.sliceSlots t params a b).1
  | sliceChannels (w : World) (t : Nat) (a b : Option Int) : Look w (w.sliceChannels t a b).1
  /-- `project.patterns.current`, `project.arrangements.current` -/
  | currentPattern (w : World) (t : Nat) : Look w (w.currentPattern t).1
  | currentArrangement (w : World) (t : Nat) : Look w (w.currentArrangement t).1
  /-- `list(c)` and `reversed(c)` of the collections -/
  | listPatterns (w : World) (t : Nat) : Look w ((World.patternsColl t).list w).1
  | listArrangements (w : World) (t : Nat) : Look w ((World.arrangementsColl t).list w).1
  | listMixer (w : World) (t : Nat) (v : FLVersion) : Look w ((World.mixerColl t v).list w).1
  | listInsert (w : World) (t : Nat) (params : Bool) : Look w ((World.insertColl t params).list w).1
  | listRack (w : World) (t : Nat) : Look w ((World.rackColl t).list w).1
  | listLayer (w : World) (cs : List Chan) (u : Nat) : Look w ((World.layerColl cs u).list w).1
  | reversePatterns (w : World) (t : Nat) : Look w ((World.patternsColl t).reversed w).1
  | reverseArrangements (w : World) (t : Nat) : Look w ((World.arrangementsColl t).reversed w).1
  | reverseMixer (w : World) (t : Nat) (v : FLVersion) : Look w ((World.mixerColl t v).reversed w).1
  | reverseInsert (w : World) (t : Nat) (params : Bool) : Look w ((World.insertColl t params).reversed w).1
  | reverseRack (w : World) (t : Nat) : Look w ((World.rackColl t).reversed w).1
  | reverseLayer (w : World) (cs : List Chan) (u : Nat) : Look w ((World.layerColl cs u).reversed w).1
  /-- `channel in project.channels` -/
  | rackHas (w : World) (t : Nat) (c : Chan) : Look w (w.rackHas t c).1
  /-- printing -/
  | strPatterns (w : World) (t : Nat) : Look w (w.strPatterns t).1
  | reprArrangement (w : World) (u ct pt : Nat) (v : FLVersion) : Look w (w.reprArrangement u ct pt v).1
  | reprSlot (ver : PyVer) (w : World) (t : Nat) : Look w (w.reprSlot ver t).1
  | reprFX {ver : PyVer} {w : World} {t : Nat} {vars : List String} {w' : World} {m} (h : w.fxAttrs ver t vars = .ok (w', m)) : Look w w'
  /-- `pyflp.save` -/
  | save (env : FloatEnv) (w : World) : Look w w.save.1

/-- Any number of calls that read. -/
inductive Looking : World → World → Prop
  | nothing (w : World) : Looking w w
  | andThen {w w' w''} (before : Looking w w') (last : Look w' w'') : Looking w w''

end Spec

/-! ### Trees -/

/-- `AsBefore` for the trees alone. -/
structure Heap.Grown (h h' : Heap) : Prop where
  cells : h'.cells = h.cells
  more : h.trees.length ≤ h'.trees.length
  lists : ∀ t, t < h.trees.length → h'.lst t = h.lst t
  parents : ∀ t, t < h.trees.length → h'.parent t = h.parent t
  roots : ∀ t, t < h.trees.length → h'.root t = h.root t

namespace Heap

theorem Grown.refl (h : Heap) : Grown h h := ⟨rfl, Nat.le_refl _, fun _ _ => rfl, fun _ _ => rfl, fun _ _ => rfl⟩

theorem Grown.trans {a b c : Heap} (x : Grown a b) (y : Grown b c) : Grown a c :=
  ⟨y.cells.trans x.cells, Nat.le_trans x.more y.more,
    fun t ht => (y.lists t (Nat.lt_of_lt_of_le ht x.more)).trans (x.lists t ht),
    fun t ht => (y.parents t (Nat.lt_of_lt_of_le ht x.more)).trans (x.parents t ht),
    fun t ht => (y.roots t (Nat.lt_of_lt_of_le ht x.more)).trans (x.roots t ht)⟩

theorem addChild_grown (h : Heap) (t c : Nat) : Grown h (h.addChild t c) := by
  refine ⟨rfl, by simp [addChild], fun u _ => ?_, fun u _ => ?_, fun u _ => ?_⟩
  all_goals
    simp only [lst, parent, root, tree_addChild]
    split <;> rfl

theorem push_grown (h : Heap) (o : Tree) : Grown h { h with trees := h.trees ++ [o] } := by
  refine ⟨rfl, by simp, fun u hu => ?_, fun u hu => ?_, fun u hu => ?_⟩
  all_goals
    simp only [lst, parent, root, tree, List.getD_eq_getElem?_getD]
    rw [List.getElem?_append_left hu]

theorem newTree_grown (h : Heap) (par : Option Nat) (l : List Nat) : Grown h (h.newTree par l).1 := by
  unfold newTree
  cases par with
  | none => exact push_grown _ _
  | some p => exact (addChild_grown h p _).trans (push_grown _ _)

theorem yieldViews_grown (t : Nat) (els : List (List Nat)) : ∀ h : Heap, Grown h (h.yieldViews t els).1 := by
  induction els with
  | nil => exact Grown.refl
  | cons el els ih =>
    intro h
    exact ((newTree_grown h (some t) el).trans (addChild_grown _ _ _)).trans (ih _)

theorem subtree_grown (h : Heap) (t : Nat) (f : Nat → Bool) : Grown h (h.subtree t f).1 :=
  (newTree_grown h (some t) _).trans (addChild_grown _ _ _)

theorem view_grown (h : Heap) (t : Nat) (call : ViewCall) : Grown h (view h t call).1 := by
  cases call with
  | subtree f => exact subtree_grown h t f
  | _ => exact yieldViews_grown t _ h

end Heap

/-! ### States -/

namespace Spec.AsBefore

theorem refl (w : World) : AsBefore w w := ⟨rfl, rfl, rfl, rfl, rfl, Nat.le_refl _, fun _ _ => rfl, fun _ _ => rfl, fun _ _ => rfl⟩

theorem grown {w w' : World} (x : AsBefore w w') : Grown w.heap w'.heap := ⟨x.cells, x.more, x.lists, x.parents, x.roots⟩

theorem ofGrown {w : World} {h : Heap} (g : Grown w.heap h) : AsBefore w { w with heap := h } :=
  ⟨rfl, rfl, rfl, rfl, g.cells, g.more, g.lists, g.parents, g.roots⟩

theorem trans {a b c : World} (x : AsBefore a b) (y : AsBefore b c) : AsBefore a c :=
  have g := x.grown.trans y.grown
  ⟨y.format.trans x.format, y.channelCount.trans x.channelCount, y.ppq.trans x.ppq, y.store.trans x.store,
    g.cells, g.more, g.lists, g.parents, g.roots⟩

end Spec.AsBefore

namespace Looks

theorem yieldView (w : World) (t : Nat) (el : List Nat) : AsBefore w (w.yieldView t el).1 :=
  .ofGrown ((newTree_grown _ _ _).trans (addChild_grown _ _ _))

theorem next (w : World) (t : Nat) (g : Generator) (s : g.σ) : AsBefore w (w.next t g s).1 := by
  unfold World.next
  split
  · exact .refl w
  · exact yieldView w t _

theorem next' {w w' : World} {t : Nat} {g : Generator} {s s' : g.σ} {o : Option Nat} (h : w.next t g s = (w', o, s')) :
    AsBefore w w' := by
  have := next w t g s
  rwa [h] at this

theorem search {t : Nat} {g : Generator} {test : World → Nat → Int → Py Bool} {w : World} {s : g.σ} {idx : Int} {w' : World}
    {res : Py (Option Nat)} (h : Search t g test w s idx w' res) : AsBefore w w' := by
  induction h with
  | ends hn => exact next' hn
  | found hn _ => exact next' hn
  | raises hn _ => exact next' hn
  | skips hn _ _ ih => exact (next' hn).trans ih

theorem nextChannel {w w' : World} {t : Nat} {groups : List Nat} {f f' : Frame (List Nat × Bool)} {o : Option (Py Chan)}
    (h : w.nextChannel t groups f = (w', o, f')) : AsBefore w w' := by
  unfold World.nextChannel at h
  split at h
  · next hn =>
    simp only [Prod.mk.injEq] at h
    obtain ⟨rfl, _⟩ := h
    exact next' hn
  · next hn =>
    simp only [Prod.mk.injEq] at h
    obtain ⟨rfl, _⟩ := h
    exact next' hn

theorem rackSearch {t : Nat} {groups : List Nat} {i : Subscript} {w : World} {f : Frame (List Nat × Bool)} {seen : List Chan}
    {w' : World} {res : Py (Chan × List Chan)} (h : RackSearch t groups i w f seen w' res) : AsBefore w w' := by
  induction h with
  | ends hn => exact nextChannel hn
  | raises hn => exact nextChannel hn
  | found hn _ => exact nextChannel hn
  | skips hn _ _ ih => exact (nextChannel hn).trans ih

theorem pickView {σ : Type} (w : World) (t : Nat) (step : σ → Nat → Bool × σ) (s : σ) : AsBefore w (w.pickView t step s).1 :=
  .ofGrown (subtree_grown _ _ _)

theorem nested (ids : List Nat) (w : World) (t : Nat) : AsBefore w (nestedProp ids w t).1 := .ofGrown (subtree_grown _ _ _)

theorem plugin (w : World) (t : Nat) (types : List PluginType) : AsBefore w (w.pluginOf t types).1 := by
  have h : AsBefore w (w.pluginEvents t).1 := nested _ w t
  unfold World.pluginOf
  split
  · exact .refl w
  · split
    · exact h
    · split
      · exact .refl w
      · exact h

theorem sepViews (w : World) (t id : Nat) : AsBefore w (w.sepViews t id).1 := .ofGrown (yieldViews_grown _ _ _)

theorem divViews (w : World) (t sep : Nat) (ids : List Nat) : AsBefore w (w.divViews t sep ids).1 :=
  .ofGrown (yieldViews_grown _ _ _)

theorem subViews {σ : Type} (w : World) (t : Nat) (step : σ → Nat → Option Bool × σ) (s : σ) (rep : Int) :
    AsBefore w (w.subViews t step s rep).1 := .ofGrown (yieldViews_grown _ _ _)

theorem named (w : World) (u id : Nat) (names : List String) : AsBefore w (w.namedViews u id names).1 := by
  unfold World.namedViews
  split
  · exact sepViews w u id
  · exact .refl w

theorem listViews (t : Nat) (els : List (List Nat)) : ∀ w : World, AsBefore w (w.listViews t els).1 := by
  induction els with
  | nil => exact .refl
  | cons el els ih =>
    intro w
    exact AsBefore.trans (.ofGrown (subtree_grown w.heap t _)) (ih _)

theorem iterPatterns (w : World) (t : Nat) : AsBefore w (w.iterPatterns t).1 := listViews t _ w

theorem iterArrangements (w : World) (t : Nat) : AsBefore w (w.iterArrangements t).1 := by
  unfold World.iterArrangements
  split
  · exact .refl w
  · exact subViews w t _ _ _

theorem iterArrangements' {w w' : World} {t : Nat} {r : Py (List Nat)} (h : w.iterArrangements t = (w', r)) : AsBefore w w' := by
  have := iterArrangements w t
  rwa [h] at this

theorem iterSlots (w : World) (t : Nat) (params : Bool) : AsBefore w (w.iterSlots t params).1 := by
  unfold World.iterSlots
  cases params <;> exact divViews w t _ _

theorem iterSlots' {w w' : World} {t : Nat} {params : Bool} {l : List Nat} {e : Option Exc} (h : w.iterSlots t params = (w', l, e)) :
    AsBefore w w' := by
  have := iterSlots w t params
  rwa [h] at this

theorem iterRack (w : World) (t : Nat) : AsBefore w (w.iterRack t).1 := (sepViews w t 231).trans (divViews _ t _ _)

theorem iterTracks (w : World) (u ct pt : Nat) (v : FLVersion) : AsBefore w (w.iterTracks u ct pt v).1 := by
  have h1 := iterRack w ct
  have h2 := h1.trans (iterPatterns _ pt)
  have h3 := h2.trans (divViews _ u 238 [239, 238])
  unfold World.iterTracks
  split
  · exact .refl w
  · dsimp only
    split
    · exact h1
    · split
      · exact h2
      · split
        · split
          · exact h2
          · exact h3
        · exact h3

theorem getArrangement (w : World) (t : Nat) (i : Subscript) : AsBefore w (w.getArrangement t i).1 := by
  unfold World.getArrangement
  split <;> (next h => exact iterArrangements' h)

theorem sliceArrangements (w : World) (t : Nat) (a b : Option Int) : AsBefore w (w.sliceArrangements t a b).1 := by
  unfold World.sliceArrangements
  split <;> (next h => exact iterArrangements' h)

theorem getSlot (w : World) (t : Nat) (params : Bool) (i : Subscript) : AsBefore w (w.getSlot t params i).1 := by
  unfold World.getSlot
  split <;> (next h => exact iterSlots' h)

theorem currentPattern (w : World) (t : Nat) : AsBefore w (w.currentPattern t).1 := by
  unfold World.currentPattern
  split
  · split
    · exact .refl w
    · exact iterPatterns w t
  · exact .refl w

theorem currentArrangement (w : World) (t : Nat) : AsBefore w (w.currentArrangement t).1 := by
  unfold World.currentArrangement
  split
  · split
    · exact .refl w
    · split
      · next h => exact iterArrangements' h
      · next h =>
        split
        · split <;> exact iterArrangements' h
        · exact iterArrangements' h
  · exact .refl w

theorem coll_list {α : Type} {c : Coll α} {w : World} (h : AsBefore w (c.iter w).1) : AsBefore w (c.list w).1 := by
  unfold Coll.list
  split
  · exact .refl w
  · split <;> (next e => rw [e] at h; exact h)

theorem coll_countdown {α : Type} {c : Coll α} (h : ∀ w i, AsBefore w (c.item w i).1) (n : Nat) :
    ∀ w, AsBefore w (c.countdown n w).1 := by
  induction n with
  | zero => exact .refl
  | succ n ih =>
    intro w
    have h1 := h w n
    rw [Coll.countdown]
    split
    · next e => rw [e] at h1; exact h1
    · next w1 m e =>
      rw [e] at h1
      exact h1.trans (ih w1)

theorem coll_reversed {α : Type} {c : Coll α} (h : ∀ w i, AsBefore w (c.item w i).1) (w : World) :
    AsBefore w (c.reversed w).1 := by
  unfold Coll.reversed
  split
  · exact .refl w
  · exact coll_countdown h _ w

theorem arrangementsIter (w : World) (t : Nat) : AsBefore w ((World.arrangementsColl t).iter w).1 := by
  show AsBefore w (match w.iterArrangements t with
      | (w', .ok us) => (w', us, none)
      | (w', .error e) => (w', [], some e) : World × List Nat × Option Exc).1
  split <;> (next h => exact iterArrangements' h)

theorem rackItem (w : World) (t : Nat) (i : Int) : AsBefore w ((World.rackColl t).item w i).1 := by
  have h : AsBefore w (w.getChannel t (.int i)).1 := iterRack w t
  show AsBefore w (match w.getChannel t (.int i) with
      | (w', .ok (c, _)) => (w', .ok c)
      | (w', .error e) => (w', .error e) : World × Py Chan).1
  split <;> (next e => rw [e] at h; exact h)

theorem reprArrangement (w : World) (u ct pt : Nat) (v : FLVersion) : AsBefore w (w.reprArrangement u ct pt v).1 := by
  have h : AsBefore w ((w.timeMarkers u).1.iterTracks u ct pt v).1 :=
    AsBefore.trans (.ofGrown (yieldViews_grown _ _ _)) (iterTracks _ u ct pt v)
  unfold World.reprArrangement
  dsimp only
  split <;> exact h

theorem reprSlot (ver : PyVer) (w : World) (t : Nat) : AsBefore w (w.reprSlot ver t).1 := by
  have h := plugin w t slotPlugins
  unfold World.reprSlot
  dsimp only
  split <;> (next e => rw [e] at h; exact h)

theorem fxAttrs {ver : PyVer} {t : Nat} (vars : List String) : ∀ {w w' : World} {m}, w.fxAttrs ver t vars = .ok (w', m) → AsBefore w w' := by
  induction vars with
  | nil =>
    intro w w' m h
    simp only [World.fxAttrs, Except.ok.injEq, Prod.mk.injEq] at h
    exact h.1 ▸ .refl w
  | cons var vars ih =>
    intro w w' m h
    rw [World.fxAttrs] at h
    split at h
    · dsimp only at h
      split at h
      · cases h
      · next e =>
        simp only [Except.ok.injEq, Prod.mk.injEq] at h
        exact h.1 ▸ (nested _ w t).trans (ih e)
    · split at h
      · cases h
      · split at h
        · cases h
        · next e =>
          simp only [Except.ok.injEq, Prod.mk.injEq] at h
          exact h.1 ▸ ih e

theorem one {w w' : World} (h : Look w w') : AsBefore w w' := by
  cases h with
  | view w t call => exact .ofGrown (view_grown _ t call)
  | next w t g s => exact next w t g s
  | channels w => exact pickView w 0 _ _
  | patterns w => exact pickView w 0 _ _
  | arrangements w =>
    have h := ((pickView w 0 arrangementsStep false).trans (pickView _ 0 channelsStep ())).trans (pickView _ 0 patternsStep false)
    unfold World.arrangements
    dsimp only
    split <;> exact h
  | mixer w =>
    have h := pickView w 0 mixerStep false
    unfold World.mixer
    dsimp only
    split <;> exact h
  | nested w ids t => exact nested ids w t
  | plugin w t types => exact plugin w t types
  | tracking w u => exact named w u _ _
  | envelopes w u => exact named w u _ _
  | timeMarkers w u => exact .ofGrown (yieldViews_grown _ _ _)
  | loopPatterns w t => exact iterPatterns w t
  | loopArrangements w t => exact iterArrangements w t
  | loopInserts w t v => exact subViews w t _ _ _
  | loopSlots w t params => exact iterSlots w t params
  | loopRack w t => exact iterRack w t
  | loopClass w t cls => exact iterRack w t
  | loopGroups w t => exact sepViews w t _
  | loopTracks w u ct pt v => exact iterTracks w u ct pt v
  | getPattern w t i => exact iterPatterns w t
  | getArrangement w t i => exact getArrangement w t i
  | getInsert w t v i => exact subViews w t _ _ _
  | getSlot w t params i => exact getSlot w t params i
  | getChannel w t i => exact iterRack w t
  | findPattern h => exact search h
  | findCurrent h => exact search h
  | findArrangement h => exact search h
  | findInsert h => exact search h
  | findSlot h => exact search h
  | findChannel h => exact (sepViews _ _ 231).trans (rackSearch h)
  | slicePatterns w t a b => exact iterPatterns w t
  | sliceArrangements w t a b => exact sliceArrangements w t a b
  | sliceInserts w t v a b => exact subViews w t _ _ _
  | sliceSlots w t params a b => exact iterSlots w t params
  | sliceChannels w t a b => exact iterRack w t
  | currentPattern w t => exact currentPattern w t
  | currentArrangement w t => exact currentArrangement w t
  | listPatterns w t => exact coll_list (iterPatterns w t)
  | listArrangements w t => exact coll_list (arrangementsIter w t)
  | listMixer w t v => exact coll_list (c := World.mixerColl t v) (subViews w t _ _ _)
  | listInsert w t params => exact coll_list (c := World.insertColl t params) (iterSlots w t params)
  | listRack w t => exact coll_list (c := World.rackColl t) (iterRack w t)
  | listLayer w cs u => exact coll_list (c := World.layerColl cs u) (.refl w)
  | reversePatterns w t => exact coll_reversed (c := World.patternsColl t) (fun w _ => iterPatterns w t) w
  | reverseArrangements w t => exact coll_reversed (c := World.arrangementsColl t) (fun w i => getArrangement w t _) w
  | reverseMixer w t v => exact coll_reversed (c := World.mixerColl t v) (fun w _ => subViews w t _ _ _) w
  | reverseInsert w t params => exact coll_reversed (c := World.insertColl t params) (fun w i => getSlot w t params _) w
  | reverseRack w t => exact coll_reversed (fun w i => rackItem w t i) w
  | reverseLayer w cs u => exact coll_reversed (c := World.layerColl cs u) (fun w _ => .refl w) w
  | rackHas w t c => exact iterRack w t
  | strPatterns w t => exact iterPatterns w t
  | reprArrangement w u ct pt v => exact reprArrangement w u ct pt v
  | reprSlot ver w t => exact reprSlot ver w t
  | reprFX h => exact fxAttrs _ h
  | save env w =>
    have h : AsBefore w w.channels.1 := pickView w 0 _ _
    unfold World.save
    dsimp only
    repeat' split
    all_goals exact h

end Looks

/-- **C148**: any number of calls that read leave everything that existed before as it was. -/
theorem C148_looking {w w' : World} (h : Looking w w') : AsBefore w w' := by
  induction h with
  | nothing => exact .refl _
  | andThen _ last ih => exact ih.trans (Looks.one last)

/-! ### What can be seen afterwards -/

namespace Spec.AsBefore

variable {w w' : World}

theorem ev (x : AsBefore w w') (ref : Nat) : w'.ev ref = w.ev ref := by unfold World.ev; rw [x.store]

theorem cell (x : AsBefore w w') (a : Nat) : w'.heap.cell a = w.heap.cell a := by unfold Heap.cell; rw [x.cells]

theorem entry (x : AsBefore w w') (a : Nat) : w'.entry a = w.entry a := by
  unfold World.entry
  rw [x.cell, x.ev]

theorem entries (x : AsBefore w w') {t : Nat} (ht : t < w.heap.trees.length) : w'.entries t = w.entries t := by
  unfold World.entries
  rw [x.lists t ht]
  exact List.map_congr_left fun a _ => x.entry a

theorem refs (x : AsBefore w w') {t : Nat} (ht : t < w.heap.trees.length) : w'.refs t = w.refs t := by
  unfold World.refs
  rw [x.lists t ht]
  exact List.map_congr_left fun a _ => by rw [x.cell]

theorem events (x : AsBefore w w') {t : Nat} (ht : t < w.heap.trees.length) : w'.events t = w.events t := by
  unfold World.events
  rw [x.refs ht]
  exact List.map_congr_left fun a _ => x.ev a

theorem project (x : AsBefore w w') (h0 : 0 < w.heap.trees.length) : w'.project = w.project := by
  unfold World.project
  rw [x.format, x.channelCount, x.ppq, x.events h0]

theorem idOf (x : AsBefore w w') : w'.heap.idOf = w.heap.idOf := by
  funext a
  unfold Heap.idOf
  rw [x.cell]

theorem first (x : AsBefore w w') {t : Nat} (ht : t < w.heap.trees.length) (id : Nat) : w'.heap.first t id = w.heap.first t id := by
  unfold Heap.first
  rw [x.lists t ht, x.idOf]
  cases (w.heap.lst t).find? fun a => decide (w.heap.idOf a = id) with
  | none => rfl
  | some a => dsimp only; rw [x.cell]

theorem contains (x : AsBefore w w') {t : Nat} (ht : t < w.heap.trees.length) (id : Nat) : w'.contains t id = w.contains t id := by
  unfold World.contains
  rw [x.lists t ht, x.idOf]

theorem getEvent (x : AsBefore w w') {t : Nat} (ht : t < w.heap.trees.length) (ids : List Nat) :
    w'.getEvent t ids = w.getEvent t ids := by
  have h : ∀ ids : List Nat, w'.firstOf t ids = w.firstOf t ids := by
    intro ids
    induction ids with
    | nil => rfl
    | cons id ids ih => rw [World.firstOf, World.firstOf, x.contains ht, x.first ht, ih]
  unfold World.getEvent
  rw [x.lists t ht, x.refs ht, h]

theorem setEv (x : AsBefore w w') (ref : Nat) (e : Event) : AsBefore (w.setEv ref e) (w'.setEv ref e) :=
  ⟨x.format, x.channelCount, x.ppq, by show w'.store.set ref e = w.store.set ref e; rw [x.store], x.cells, x.more, x.lists,
    x.parents, x.roots⟩

theorem withHeap (x : AsBefore w w') {h h' : Heap} (g : Grown h h') : AsBefore { w with heap := h } { w' with heap := h' } :=
  ⟨x.format, x.channelCount, x.ppq, x.store, g.cells, g.more, g.lists, g.parents, g.roots⟩

theorem read {α : Type} (x : AsBefore w w') {t : Nat} (ht : t < w.heap.trees.length) (d : Descr α) : d.read w' t = d.read w t := by
  unfold Descr.read
  rw [x.getEvent ht]
  split
  · rfl
  · rfl
  · rw [x.ev]

theorem write {α : Type} (x : AsBefore w w') {t : Nat} (ht : t < w.heap.trees.length) (d : Descr α) (v : α) :
    (d.write w' t v).2 = (d.write w t v).2 ∧ AsBefore (d.write w t v).1 (d.write w' t v).1 := by
  unfold Descr.write
  split
  · exact ⟨rfl, x⟩
  · rw [x.getEvent ht]
    split
    · exact ⟨rfl, x⟩
    · exact ⟨rfl, x⟩
    · rw [x.ev]
      split
      · exact ⟨rfl, x⟩
      · exact ⟨rfl, x.setEv _ _⟩

end Spec.AsBefore

/-! ### Edits of trees -/

namespace Heap.Grown

variable {h h' : Heap}

theorem r (g : Grown h h') (a : Nat) : h'.r a = h.r a := by unfold Heap.r Heap.cell; rw [g.cells]

theorem setLst (g : Grown h h') {t : Nat} (ht : t < h.trees.length) (l : List Nat) : Grown (h.setLst t l) (h'.setLst t l) := by
  refine ⟨g.cells, by rw [tlen_setLst, tlen_setLst]; exact g.more, fun u hu => ?_, fun u hu => ?_, fun u hu => ?_⟩
  all_goals rw [tlen_setLst] at hu
  · rw [lst_setLst, lst_setLst, g.lists u hu]
    have := Nat.lt_of_lt_of_le ht g.more
    by_cases e : u = t
    · rw [if_pos ⟨e, this⟩, if_pos ⟨e, ht⟩]
    · rw [if_neg (fun c => e c.1), if_neg (fun c => e c.1)]
  · rw [parent_setLst, parent_setLst, g.parents u hu]
  · rw [root_setLst, root_setLst, g.roots u hu]

theorem withCells (g : Grown h h') (c : List Cell) : Grown { h with cells := c } { h' with cells := c } :=
  ⟨rfl, g.more, g.lists, g.parents, g.roots⟩

theorem setR (g : Grown h h') (a : Nat) (x : Int) : Grown (h.setR a x) (h'.setR a x) := by
  unfold Heap.setR
  rw [g.cells]
  exact g.withCells _

theorem shiftUp (l : List Nat) (x : Int) : ∀ {h h' : Heap}, Grown h h' → Grown (h.shiftUp l x) (h'.shiftUp l x) := by
  induction l with
  | nil => exact fun g => g
  | cons a l ih =>
    intro h h' g
    refine ih ?_
    dsimp only
    rw [g.r]
    split
    · exact g.setR a _
    · exact g

theorem shiftDown (l : List Nat) (ie : Nat) : ∀ {h h' : Heap}, Grown h h' → Grown (h.shiftDown l ie) (h'.shiftDown l ie) := by
  induction l with
  | nil => exact fun g => g
  | cons a l ih =>
    intro h h' g
    refine ih ?_
    dsimp only
    rw [g.r, g.r]
    split
    · exact g.setR a _
    · exact g

theorem addSorted (g : Grown h h') (l : List Nat) (a : Nat) : h'.addSorted l a = h.addSorted l a := by
  unfold Heap.addSorted
  simp only [g.r]

theorem removeSorted (g : Grown h h') (l : List Nat) (a : Nat) : h'.removeSorted l a = h.removeSorted l a := by
  unfold Heap.removeSorted
  simp only [g.r]

theorem addAll (c : Cell) (ts : List Nat) : ∀ {h h' : Heap}, Grown h h' → (∀ t ∈ ts, t < h.trees.length) →
    Grown (h.addAll c ts) (h'.addAll c ts) := by
  induction ts with
  | nil => exact fun g _ => g
  | cons t ts ih =>
    intro h h' g ht
    have h1 := ht t (by simp)
    have g1 : Grown { h with cells := h.cells ++ [c] } { h' with cells := h'.cells ++ [c] } := by
      rw [g.cells]; exact g.withCells _
    have hl : ({ h' with cells := h'.cells ++ [c] } : Heap).lst t = ({ h with cells := h.cells ++ [c] } : Heap).lst t := g1.lists t h1
    rw [Heap.addAll, Heap.addAll, hl, g1.addSorted, g.cells]
    have g2 := g1.setLst (t := t) h1 (({ h with cells := h.cells ++ [c] } : Heap).addSorted
      (({ h with cells := h.cells ++ [c] } : Heap).lst t) h.cells.length)
    rw [g.cells] at g2
    refine ih g2 fun u hu => ?_
    rw [tlen_setLst]
    exact ht u (by simp [hu])

theorem removeAll (a : Nat) (ts : List Nat) : ∀ {h h' : Heap}, Grown h h' → (∀ t ∈ ts, t < h.trees.length) →
    (h'.removeAll a ts).2 = (h.removeAll a ts).2 ∧ Grown (h.removeAll a ts).1 (h'.removeAll a ts).1 := by
  induction ts with
  | nil => exact fun g _ => ⟨rfl, g⟩
  | cons t ts ih =>
    intro h h' g ht
    have h1 := ht t (by simp)
    rw [Heap.removeAll, Heap.removeAll, g.lists t h1, g.removeSorted]
    split
    · exact ⟨rfl, g⟩
    · refine ih (g.setLst h1 _) fun u hu => ?_
      rw [tlen_setLst]
      exact ht u (by simp [hu])

/-- The trees above an up-to-date view. -/
theorem ancestors (g : Grown h h') {V : Nat → Prop} (gd : Good h 0 V) {t : Nat} (ht : V t) : h'.ancestors t = h.ancestors t := by
  have : ∀ n t, V t → h'.ancestorsUpTo n t = h.ancestorsUpTo n t := by
    intro n
    induction n with
    | zero => exact fun _ _ => rfl
    | succ n ih =>
      intro t ht
      rw [ancestorsUpTo, ancestorsUpTo, g.parents t (gd.lt t ht)]
      by_cases e : t = 0
      · subst e; rw [gd.parρ]
      · obtain ⟨p, hp, _, hv, _⟩ := gd.up t ht e
        rw [hp]
        dsimp only
        rw [ih p hv]
  exact this t t ht

end Heap.Grown

namespace Heap

theorem shiftUp_trees (l : List Nat) (x : Int) : ∀ h : Heap, (h.shiftUp l x).trees = h.trees := by
  induction l with
  | nil => exact fun _ => rfl
  | cons a l ih =>
    intro h
    have step : h.shiftUp (a :: l) x = (if x ≤ h.r a then h.setR a (h.r a + 1) else h).shiftUp l x := rfl
    rw [step, ih]
    split <;> rfl

theorem removeAll_shape (a : Nat) (ts : List Nat) : ∀ h : Heap,
    (h.removeAll a ts).1.trees.length = h.trees.length ∧ ∀ t, (h.removeAll a ts).1.root t = h.root t := by
  induction ts with
  | nil => exact fun _ => ⟨rfl, fun _ => rfl⟩
  | cons t ts ih =>
    intro h
    rw [Heap.removeAll]
    split
    · exact ⟨rfl, fun _ => rfl⟩
    · next l _ =>
      obtain ⟨i1, i2⟩ := ih (h.setLst t l)
      exact ⟨i1.trans (tlen_setLst ..), fun u => (i2 u).trans (root_setLst ..)⟩

/-- Removal through an up-to-date view does the same when trees have been added. -/
theorem Grown.pop {h h' : Heap} (g : Grown h h') {V : Nat → Prop} (gd : Good h 0 V) {t : Nat} (ht : V t) (id : Nat) (n : Int) :
    (h'.pop t id n).2 = (h.pop t id n).2 ∧ Grown (h.pop t id n).1 (h'.pop t id n).1 := by
  have hc : h'.cell = h.cell := by funext a; unfold Heap.cell; rw [g.cells]
  have hlt := gd.lt t ht
  have hts : ∀ u ∈ t :: h.ancestors t, u < h.trees.length := fun u hu => gd.lt u ((gd.chain_facts t ht).2.1 u hu).1
  unfold Heap.pop
  rw [g.lists t hlt, hc, g.ancestors gd ht]
  split
  · split
    · exact ⟨rfl, g⟩
    · next ie _ =>
      obtain ⟨j1, j2⟩ := Grown.removeAll ie (t :: h.ancestors t) g hts
      obtain ⟨s1, s2⟩ := removeAll_shape ie (t :: h.ancestors t) h
      cases hr : h.removeAll ie (t :: h.ancestors t) with
      | mk a x =>
      cases hr' : h'.removeAll ie (t :: h.ancestors t) with
      | mk a' x' =>
      rw [hr, hr'] at j1 j2
      rw [hr] at s1 s2
      dsimp only at j1 j2 s1 s2
      subst j1
      cases x' with
      | error e => exact ⟨rfl, j2⟩
      | ok u =>
        have h0 : a.root t = 0 := (s2 t).trans (gd.rootV t ht)
        have h1 : a'.root t = 0 := (j2.roots t (by omega)).trans h0
        have h2 : a'.lst 0 = a.lst 0 := j2.lists 0 (by have := gd.lt 0 gd.vρ; omega)
        dsimp only
        rw [h0, h1, h2]
        refine ⟨?_, Grown.shiftDown _ _ j2⟩
        unfold Heap.cell
        rw [j2.cells]
  · exact ⟨rfl, g⟩

/-- Insertion through an up-to-date view does the same when trees have been added. -/
theorem Grown.insert {h h' : Heap} (g : Grown h h') {V : Nat → Prop} (gd : Good h 0 V) {t : Nat} (ht : V t) (pos : Int)
    (ref id : Nat) : (h'.insert t pos ref id).2 = (h.insert t pos ref id).2 ∧
      Grown (h.insert t pos ref id).1 (h'.insert t pos ref id).1 := by
  have hlt := gd.lt t ht
  have hts : ∀ u ∈ t :: h.ancestors t, u < h.trees.length := fun u hu => gd.lt u ((gd.chain_facts t ht).2.1 u hu).1
  have hs : h'.sortedIndexes t = h.sortedIndexes t := by
    have hr : h'.r = h.r := by funext a; exact g.r a
    unfold Heap.sortedIndexes
    rw [g.lists t hlt, hr]
  have h0 : h.root t = 0 := gd.rootV t ht
  have h1 : h'.root t = 0 := (g.roots t hlt).trans h0
  have h2 : h'.lst 0 = h.lst 0 := g.lists 0 (gd.lt 0 gd.vρ)
  unfold Heap.insert
  rw [g.lists t hlt, hs, h0, h1, h2]
  split
  · exact ⟨rfl, g⟩
  · next x _ =>
    dsimp only
    have a1 : (h.shiftUp (h.lst 0) x).ancestors t = h.ancestors t :=
      ancestors_congr (fun u => by unfold Heap.parent Heap.tree; rw [shiftUp_trees]) t
    have a2 : (h'.shiftUp (h.lst 0) x).ancestors t = h.ancestors t :=
      (ancestors_congr (fun u => by unfold Heap.parent Heap.tree; rw [shiftUp_trees]) t).trans (g.ancestors gd ht)
    rw [a1, a2]
    refine ⟨rfl, Grown.addAll _ _ (Grown.shiftUp _ _ g) fun u hu => ?_⟩
    rw [shiftUp_trees]
    exact hts u hu

end Heap

/-! ### The theorems -/

/-- **C148**: after any number of calls that read, the project and the file that would be saved are the same, every object that was
up to date shows the same events with the same values, and each of its properties reads the same. -/
theorem C148_saved [FloatEnv] {w w' : World} {L : Nat → Prop} (r : WReach w L) (h : Looking w w') :
    w'.project = w.project ∧ saveBytes w'.project = saveBytes w.project ∧
    ∀ t, L t → w'.entries t = w.entries t ∧ ∀ (ver : PyVer) (p : PropRow), p.read ver w' t = p.read ver w t := by
  have x := C148_looking h
  obtain ⟨g, _⟩ := reach_good (wreach_inv r).1
  have hp := x.project (g.lt 0 g.vρ)
  exact ⟨hp, by rw [hp], fun t ht => ⟨x.entries (g.lt t ht), fun ver p => x.read (g.lt t ht) (p.descr ver)⟩⟩

/-- **C148**: edits through an object that was up to date have the same result and the same effect whether or not the program has
looked at the project before: removing an event, inserting one and assigning a property.  What they give is again equal up to
trees that only the look has made, so that this goes on for any number of edits. -/
theorem C148_edits {w w' : World} {L : Nat → Prop} (r : WReach w L) (x : AsBefore w w') {t : Nat} (ht : L t) :
    (∀ (id : Nat) (n : Int), (w'.heap.pop t id n).2 = (w.heap.pop t id n).2 ∧
      AsBefore { w with heap := (w.heap.pop t id n).1 } { w' with heap := (w'.heap.pop t id n).1 }) ∧
    (∀ (pos : Int) (e : Event), (w'.heap.insert t pos w'.store.length e.id).2 = (w.heap.insert t pos w.store.length e.id).2 ∧
      AsBefore { w with heap := (w.heap.insert t pos w.store.length e.id).1, store := w.store ++ [e] }
        { w' with heap := (w'.heap.insert t pos w'.store.length e.id).1, store := w'.store ++ [e] }) ∧
    ∀ (ver : PyVer) (p : PropRow) (v : p.type), (p.write ver w' t v).2 = (p.write ver w t v).2 ∧
      AsBefore (p.write ver w t v).1 (p.write ver w' t v).1 := by
  obtain ⟨gd, _⟩ := reach_good (wreach_inv r).1
  refine ⟨fun id n => ?_, fun pos e => ?_, fun ver p v => x.write (gd.lt t ht) _ v⟩
  · obtain ⟨j1, j2⟩ := x.grown.pop gd ht id n
    exact ⟨j1, x.withHeap j2⟩
  · rw [x.store]
    obtain ⟨j1, j2⟩ := x.grown.insert gd ht pos w.store.length e.id
    exact ⟨j1, x.format, x.channelCount, x.ppq, rfl, j2.cells, j2.more, j2.lists, j2.parents, j2.roots⟩

/-! ### Saving -/

theorem filter_pickBy_unit (l : List Ev) (f : Nat → Bool) (p : Ev → Bool) (h : ∀ e, p e = true → f e.2 = true) :
    (pickBy Prod.snd (fun (_ : Unit) id => (f id, ())) () l).filter p = l.filter p := by
  induction l with
  | nil => rfl
  | cons a l ih =>
    simp only [pickBy]
    by_cases ha : f a.2 = true
    · rw [if_pos ha, List.filter_cons, List.filter_cons, ih]
    · rw [if_neg ha, ih, List.filter_cons, if_neg (fun hp => ha (h a hp))]

/-- The tree of the rack has all the channels of the project. -/
theorem rack_len {w : World} {L : Nat → Prop} (r : WReach w L) :
    w.channels.1.lenRack w.channels.2 = channelLen w.project.events := by
  obtain ⟨g, _⟩ := reach_good (wreach_inv r).1
  have hs := pickView_shown r g.vρ channelsStep ()
  have hcount : ((w.channels.1.heap.lst w.channels.2).filter fun a => decide (w.channels.1.heap.idOf a = 64)).length =
      channelStarts w.project.events := by
    have h1 : ((w.channels.1.heap.lst w.channels.2).filter fun a => decide (w.channels.1.heap.idOf a = 64)).length =
        ((shown w.channels.1.heap w.channels.2).filter fun e => decide (e.2 = 64)).length := by
      unfold shown
      rw [List.filter_map, List.length_map]
      rfl
    have hstep : channelsStep = fun (_ : Unit) id => ((channelsStep () id).1, ()) := rfl
    rw [h1, show shown w.channels.1.heap w.channels.2 = _ from hs, hstep,
      filter_pickBy_unit _ _ _ (fun e he => by
        rw [of_decide_eq_true he]; decide)]
    have hid : ∀ x ∈ shown w.heap 0, (w.ev x.1).id = x.2 := fun x hx => ((wreach_inv r).2 x hx).2
    unfold channelStarts
    show _ = ((w.events 0).filter fun e => decide (e.id = 64)).length
    unfold World.events
    rw [World.refs_eq, List.map_map, List.filter_map, List.length_map]
    congr 1
    exact List.filter_congr fun x hx => by
      show decide (x.2 = 64) = decide ((w.ev x.1).id = 64)
      rw [hid x hx]
  have hcnt : w.channels.1.count w.channels.2 64 = channelStarts w.project.events := by
    rw [← hcount]
    unfold World.count Heap.get
    rw [List.length_map]
    congr 1
    exact List.filter_congr fun a _ => by simp
  have hcon : w.channels.1.contains w.channels.2 64 = decide (channelStarts w.project.events ≠ 0) := by
    rw [← hcount, Bool.eq_iff_iff, decide_eq_true_iff]
    unfold World.contains
    rw [List.any_eq_true]
    constructor
    · rintro ⟨a, ha, he⟩ h0
      have := List.length_eq_zero_iff.1 h0
      have hm : a ∈ (w.channels.1.heap.lst w.channels.2).filter fun a => decide (w.channels.1.heap.idOf a = 64) :=
        List.mem_filter.2 ⟨ha, by simpa using he⟩
      rw [this] at hm
      cases hm
    · intro h0
      obtain ⟨a, ha⟩ := List.exists_mem_of_length_pos (Nat.pos_of_ne_zero h0)
      obtain ⟨h1, h2⟩ := List.mem_filter.1 ha
      exact ⟨a, h1, by simpa using h2⟩
  unfold World.lenRack
  rw [hcon, hcnt, channelLen_eq]
  by_cases h0 : channelStarts w.project.events = 0
  · simp [h0]
  · simp [h0]

/-- **C148**: saving gives the bytes that belong to the events the project shows, and leaves everything as it was, so that saving
again gives the same bytes. -/
theorem C148_save [FloatEnv] {w : World} {L : Nat → Prop} (r : WReach w L) :
    w.save.2 = saveBytes w.project ∧ AsBefore w w.save.1 := by
  have x : AsBefore w w.channels.1 := Looks.pickView w 0 _ _
  obtain ⟨g, _⟩ := reach_good (wreach_inv r).1
  have he : w.channels.1.events 0 = w.project.events := x.events (g.lt 0 g.vρ)
  unfold World.save
  dsimp only
  rw [rack_len r, x.format, x.ppq, he]
  unfold saveBytes
  rw [show w.project.format = w.format from rfl, show w.project.ppq = w.ppq from rfl]
  cases channelLen w.project.events with
  | error e => exact ⟨rfl, x⟩
  | ok n =>
    dsimp only
    cases packHeader w.format n w.ppq with
    | error e => exact ⟨rfl, x⟩
    | ok hdr =>
      dsimp only
      cases eventsBytes w.project.events with
      | error e => exact ⟨rfl, x⟩
      | ok body => exact ⟨rfl, x⟩

/-! ### A project with two patterns -/

open Demo in
/-- Looping over the patterns and then asking for `project.patterns[0]` and `str(project.patterns)` makes six trees, and the
hypotheses of the theorems are met. -/
example : WReach tuneWorld.1 (fun u => u = 0 ∨ u = tuneWorld.2) ∧
    Looking tuneWorld.1 (((tuneWorld.1.iterPatterns tuneWorld.2).1.getPattern tuneWorld.2 (.int 0)).1.strPatterns tuneWorld.2).1 ∧
    tuneWorld.1.heap.trees.length = 2 ∧
    (((tuneWorld.1.iterPatterns tuneWorld.2).1.getPattern tuneWorld.2 (.int 0)).1.strPatterns tuneWorld.2).1.heap.trees.length = 8 :=
  ⟨tune_reach, .andThen (.andThen (.andThen (.nothing _) (.loopPatterns _ _)) (.getPattern _ _ _)) (.strPatterns _ _),
    by decide +kernel, by decide +kernel⟩

end PyFLP
