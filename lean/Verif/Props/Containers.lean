import Verif.Containers
import Verif.Props.Exact
import Verif.Props.Mixer
import Verif.Props.Slices
/-!
# Collections as Python containers (C112, C113)
-/

namespace PyFLP

open Spec Heap

/-! ## C112: `list()` and truth values -/

namespace Spec

/-- `list(c)` is what a loop over `c` visits, and raises what the loop raises. -/
def ListsLoop {α : Type} (c : Coll α) (w : World) : Prop :=
  (c.list w).2 = match (c.iter w).2.2 with
    | none => .ok (c.iter w).2.1
    | some e => .error e

/-- `bool(c)` tells whether a loop over `c` visits anything. -/
def TruthOfLoop {α : Type} (c : Coll α) (w : World) : Prop := c.truth w = .ok (decide ((c.iter w).2.1 ≠ []))

end Spec

theorem list_of_len {α : Type} {c : Coll α} {w : World} {n : Nat} (h : c.len w = .ok n) : ListsLoop c w := by
  unfold ListsLoop Coll.list
  rw [h]
  dsimp only
  rcases c.iter w with ⟨w', l, _ | e⟩ <;> rfl

theorem list_of_error {α : Type} {c : Coll α} {w : World} {e : Exc} (h : c.len w = .error e) :
    c.list w = (w, .error e) ∧ c.truth w = .error e := by
  unfold Coll.list Coll.truth
  rw [h]
  exact ⟨rfl, rfl⟩

theorem truth_of_len {α : Type} {c : Coll α} {w : World} {n : Nat} (h : c.len w = .ok n) : c.truth w = .ok (decide (n ≠ 0)) := by
  unfold Coll.truth
  rw [h]

/-- C112 for arrangements, layers and tracks, in every state: `list()` is what a loop visits, and raises what it raises. -/
theorem C112_list {α : Type} (w : World) (t : Nat) (cs : List Chan) (u : Nat) (params : Bool) (items : List α) :
    ListsLoop (World.arrangementsColl t) w ∧ ListsLoop (World.layerColl cs u) w ∧ ListsLoop (World.insertColl u params) w ∧
      ListsLoop (itemsColl items) w := by
  refine ⟨?_, list_of_len (n := w.lenLayer u) rfl, list_of_len (n := w.lenInsert u) rfl, list_of_len (n := items.length) rfl⟩
  cases h : w.lenArrangements t with
  | ok n => exact list_of_len (c := World.arrangementsColl t) (n := n) h
  | error e =>
    unfold ListsLoop
    rw [(list_of_error (c := World.arrangementsColl t) h).1]
    dsimp only [World.arrangementsColl]
    unfold World.iterArrangements
    rw [h]

theorem has_event {w : World} {t id : Nat} : (∃ e ∈ w.entries t, e.2.id = id) ↔ ∃ e ∈ w.events t, e.id = id := by
  rw [← World.entries_events]
  constructor
  · rintro ⟨e, h1, h2⟩; exact ⟨e.2, List.mem_map_of_mem h1, h2⟩
  · rintro ⟨e, h1, h2⟩
    obtain ⟨x, hx, rfl⟩ := List.mem_map.1 h1
    exact ⟨x, hx, h2⟩

/-- C112 for patterns, the mixer and the rack: `list()` is what a loop visits, and `bool()` is `True`, if there is a `New` event
of a pattern, a `Flags` event of an insert, a `New` event of a channel.  Otherwise both raise `NoModelsFound`. -/
theorem C112_list_partial {w : World} {L : Nat → Prop} (r : WReach w L) {t : Nat} (ht : L t) (v : FLVersion) :
    (if ∃ e ∈ w.events t, e.id = 65 then ListsLoop (World.patternsColl t) w ∧ (World.patternsColl t).truth w = .ok true
      else ((World.patternsColl t).list w).2 = .error .noModelsFound ∧ (World.patternsColl t).truth w = .error .noModelsFound) ∧
    (if ∃ e ∈ w.events t, e.id = 236 then ListsLoop (World.mixerColl t v) w ∧ (World.mixerColl t v).truth w = .ok true
      else ((World.mixerColl t v).list w).2 = .error .noModelsFound ∧ (World.mixerColl t v).truth w = .error .noModelsFound) ∧
    (if ∃ e ∈ w.events t, e.id = 64 then ListsLoop (World.rackColl t) w ∧ (World.rackColl t).truth w = .ok true
      else ((World.rackColl t).list w).2 = .error .noModelsFound ∧ (World.rackColl t).truth w = .error .noModelsFound) ∧
    (if ∃ e ∈ w.events t, e.id = 99 then ListsLoop (World.arrangementsColl t) w ∧ (World.arrangementsColl t).truth w = .ok true
      else ((World.arrangementsColl t).list w).2 = .error .noModelsFound ∧
        (World.arrangementsColl t).truth w = .error .noModelsFound) := by
  have pos : ∀ id, (∃ e ∈ w.events t, e.id = id) → w.contains t id = true ∧ w.count t id ≠ 0 := by
    intro id h
    have h' := has_event.2 h
    refine ⟨(contains_entries r ht id).2 h', ?_⟩
    rw [count_entries r ht]
    obtain ⟨e, h1, h2⟩ := h'
    have : e ∈ (w.entries t).filter fun e => decide (e.2.id = id) := List.mem_filter.2 ⟨h1, decide_eq_true h2⟩
    intro h0
    rw [List.eq_nil_of_length_eq_zero h0] at this
    cases this
  have neg : ∀ id, (¬ ∃ e ∈ w.events t, e.id = id) → w.contains t id = false := by
    intro id h
    cases hc : w.contains t id with
    | false => rfl
    | true => exact absurd (has_event.1 ((contains_entries r ht id).1 hc)) h
  have key : ∀ {α : Type} (c : Coll α) (id n : Nat), c.len w = (if w.contains t id then .ok n else .error .noModelsFound) →
      ((∃ e ∈ w.events t, e.id = id) → n ≠ 0) →
      (if ∃ e ∈ w.events t, e.id = id then ListsLoop c w ∧ c.truth w = .ok true
        else (c.list w).2 = .error .noModelsFound ∧ c.truth w = .error .noModelsFound) := by
    intro α c id n hl hn
    by_cases h : ∃ e ∈ w.events t, e.id = id
    · rw [if_pos h]
      rw [if_pos (pos id h).1] at hl
      exact ⟨list_of_len hl, by rw [truth_of_len hl]; simp [hn h]⟩
    · rw [if_neg h]
      rw [neg id h] at hl
      obtain ⟨h1, h2⟩ := list_of_error (c := c) hl
      exact ⟨by rw [h1], h2⟩
  refine ⟨key (World.patternsColl t) 65 _ rfl ?_, key (World.mixerColl t v) 236 _ rfl fun h => (pos 236 h).2,
    key (World.rackColl t) 64 _ rfl fun h => (pos 64 h).2, key (World.arrangementsColl t) 99 _ rfl fun h => (pos 99 h).2⟩
  intro h h0
  have := lenPatterns_exact r ht
  unfold World.lenPatterns at this
  rw [if_pos (pos 65 h).1] at this
  obtain ⟨e, h1, h2⟩ := has_event.2 h
  have hm : e.2.value ∈ newNumbers (w.entries t) := mem_newNumbers.2 ⟨e, h1, h2, rfl⟩
  split at this
  · next hn => rw [hn] at hm; cases hm
  · next hn =>
    have h3 := Except.ok.inj this
    rw [h0] at h3
    exact hn (List.eq_nil_of_length_eq_zero h3.symm)

/-- C112 for tracks, and for layers all of whose children were found: `bool()` tells whether there is anything to visit. -/
theorem C112_truth {α : Type} {w : World} {L : Nat → Prop} (r : WReach w L) {u : Nat} (hu : L u) {cs : List Chan} (items : List α)
    (h : ∀ v ∈ childNumbers (w.events u), ∃ c ∈ cs, c.iid = v) :
    TruthOfLoop (itemsColl items) w ∧ TruthOfLoop (World.layerColl cs u) w := by
  constructor
  · unfold TruthOfLoop
    rw [truth_of_len (n := items.length) rfl]
    cases items <;> rfl
  · obtain ⟨l, h1, _, h2, _⟩ := C74_layer_partial r hu h
    unfold TruthOfLoop
    rw [truth_of_len (n := w.lenLayer u) rfl, ← h2]
    have e : ((World.layerColl cs u).iter w).2.1 = l := by
      show (w.iterLayer cs u).1 = l
      rw [h1]
    simp only [e]
    cases l <;> rfl

/-- C112 is false of inserts without `Index` events: `bool(insert)` is `False` although a loop visits a slot. -/
theorem C112_insert_refuted {w : World} {L : Nat → Prop} (r : WReach w L) {u : Nat} (hu : L u)
    (hne : shown w.heap 0 ≠ []) (h : ∀ e ∈ w.entries u, e.2.id ≠ 98) :
    (World.insertColl u true).truth w = .ok false ∧ ∃ w' s, (World.insertColl u true).iter w = (w', [s], none) := by
  obtain ⟨h1, h2⟩ := C62_slots_refuted r hu hne h
  constructor
  · rw [truth_of_len (n := w.lenInsert u) rfl, h1]
    rfl
  · match hs : w.slotViews u with
    | (w', [s]) =>
      refine ⟨w', s, ?_⟩
      dsimp only [World.insertColl]
      unfold World.iterSlots
      rw [hs]
      rfl
    | (w', []) => rw [hs] at h2; cases h2
    | (w', _ :: _ :: _) => rw [hs] at h2; cases h2

namespace Demo

/-- A time marker, and no pattern. -/
def marked : Project := ⟨0, 1, 96, [
  ⟨199, .ascii, .str (PStr.lit "12.0.2"), 7⟩, ⟨64, .u16, .lv (.int 0), 2⟩,
  ⟨148, .u32, .lv (.int 96), 4⟩, ⟨205, .unicode, .str (PStr.lit "Verse"), 12⟩]⟩

def markedWorld : World × Nat := (World.ofProject marked).patterns

theorem marked_reach : WReach markedWorld.1 (fun u => u = 0 ∨ u = markedWorld.2) :=
  pickView_reach (.parsed marked) rfl (by decide +kernel) patternsStep false

end Demo

/-- C112 is false of `project.patterns`: a loop visits a pattern without a number, which has the time marker, whereas `list()`
and `bool()` raise. -/
theorem C112_patterns_refuted : ∃ (w : World) (t : Nat) (L : Nat → Prop), WReach w L ∧ L t ∧ shown w.heap 0 ≠ [] ∧
    ((World.patternsColl t).iter w).2 = ([2], none) ∧ ((World.patternsColl t).list w).2 = .error .noModelsFound ∧
    (World.patternsColl t).truth w = .error .noModelsFound :=
  ⟨Demo.markedWorld.1, Demo.markedWorld.2, _, Demo.marked_reach, .inr rfl, by decide +kernel, by decide +kernel,
    by decide +kernel, by decide +kernel⟩

/-- C112 is false of `project.mixer`: a loop visits two inserts none of which has a `Flags` event, whereas `list()` and `bool()`
raise. -/
theorem C112_mixer_refuted : ∃ (w : World) (t : Nat) (L : Nat → Prop) (v : FLVersion), WReach w L ∧ L t ∧ shown w.heap 0 ≠ [] ∧
    ((World.mixerColl t v).iter w).2.1.length = 2 ∧ ((World.mixerColl t v).list w).2 = .error .noModelsFound ∧
    (World.mixerColl t v).truth w = .error .noModelsFound :=
  ⟨Demo.consoleWorld.1, Demo.consoleWorld.2, _, ⟨20, 8, 4, some 0⟩, Demo.console_reach, .inr rfl, by decide +kernel, by decide +kernel,
    by decide +kernel, by decide +kernel⟩

/-! ## C113: `reversed()` -/

namespace Spec

/-- The models `c[n - 1]`, ..., `c[0]` up to the first that is not there. -/
def fromEnd {β : Type} (find : Nat → Py β) : Nat → List β × Option Exc
  | 0 => ([], none)
  | n + 1 =>
    match find n with
    | .ok b => (b :: (fromEnd find n).1, (fromEnd find n).2)
    | .error e => ([], if e.isIndexError then none else some e)

end Spec

/-- Views that exist stay as they are. -/
structure Steady (w w' : World) : Prop where
  project : w'.project = w.project
  len : w.heap.trees.length ≤ w'.heap.trees.length
  entries : ∀ u, u < w.heap.trees.length → w'.entries u = w.entries u

theorem Steady.refl (w : World) : Steady w w := ⟨rfl, Nat.le_refl _, fun _ _ => rfl⟩

theorem Steady.trans {w w1 w2 : World} (a : Steady w w1) (b : Steady w1 w2) : Steady w w2 :=
  ⟨b.project.trans a.project, Nat.le_trans a.len b.len, fun u hu => (b.entries u (Nat.lt_of_lt_of_le hu a.len)).trans (a.entries u hu)⟩

theorem countdown_spec {α β : Type} (c : Coll α) (I : World → Prop) (sh : World → α → β) (old : World → α → Prop)
    (find : Nat → Py β) (hold : ∀ w w' m, Steady w w' → old w m → old w' m ∧ sh w' m = sh w m)
    (hitem : ∀ w (k : Nat), I w → I (c.item w k).1 ∧ Steady w (c.item w k).1 ∧ match find k with
      | .ok b => ∃ m, (c.item w k).2 = .ok m ∧ sh (c.item w k).1 m = b ∧ old (c.item w k).1 m
      | .error e => (c.item w k).2 = .error e) : ∀ (n : Nat) (w : World), I w →
    I (c.countdown n w).1 ∧ Steady w (c.countdown n w).1 ∧
      (c.countdown n w).2.1.map (sh (c.countdown n w).1) = (fromEnd find n).1 ∧ (c.countdown n w).2.2 = (fromEnd find n).2 ∧
      ∀ m ∈ (c.countdown n w).2.1, old (c.countdown n w).1 m := by
  intro n
  induction n with
  | zero => intro w h; exact ⟨h, Steady.refl w, rfl, rfl, fun m hm => by cases hm⟩
  | succ n ih =>
    intro w h
    obtain ⟨h1, h2, h3⟩ := hitem w n h
    rcases hi : c.item w n with ⟨w', r⟩
    rw [hi] at h1 h2 h3
    dsimp only at h1 h2 h3
    unfold Coll.countdown fromEnd
    rw [hi]
    cases hf : find n with
    | error e =>
      rw [hf] at h3
      dsimp only at h3
      subst h3
      exact ⟨h1, h2, rfl, rfl, fun m hm => by cases hm⟩
    | ok b =>
      rw [hf] at h3
      dsimp only at h3
      obtain ⟨m, rfl, h4, h5⟩ := h3
      obtain ⟨i1, i2, i3, i4, i5⟩ := ih w' h1
      dsimp only
      rcases hc : c.countdown n w' with ⟨w'', l, e⟩
      rw [hc] at i1 i2 i3 i4 i5
      dsimp only at i1 i2 i3 i4 i5 ⊢
      obtain ⟨o1, o2⟩ := hold w' w'' m i2 h5
      refine ⟨i1, h2.trans i2, ?_, i4, ?_⟩
      · rw [List.map_cons, i3, o2, h4]
      · intro x hx
        rcases List.mem_cons.1 hx with rfl | hx
        · exact o1
        · exact i5 x hx

/-- Lookup by position from the `k`th model on. -/
def atPosition {β : Type} (bs : List β) (k : Nat) (n : Nat) : Py β :=
  match bs[n + k]? with
  | some b => .ok b
  | none => .error .modelNotFound

theorem fromEnd_list {β : Type} (bs : List β) (k : Nat) (n : Nat) :
    fromEnd (atPosition bs k) n = (if n + k ≤ bs.length then ((bs.take (n + k)).drop k).reverse else [], none) := by
  induction n with
  | zero =>
    unfold fromEnd
    have : (bs.take (0 + k)).drop k = [] := by
      apply List.drop_eq_nil_of_le
      rw [List.length_take]; omega
    rw [this]
    simp
  | succ n ih =>
    unfold fromEnd
    have e : atPosition bs k n = match bs[n + k]? with
      | some b => .ok b
      | none => .error .modelNotFound := rfl
    rw [e]
    by_cases hk : n + k < bs.length
    · rw [List.getElem?_eq_getElem hk]
      dsimp only
      rw [ih, if_pos (by omega), if_pos (by omega)]
      congr 1
      rw [show n + 1 + k = n + k + 1 by omega, List.take_add_one, List.getElem?_eq_getElem hk]
      rw [List.drop_append_of_le_length (by rw [List.length_take]; omega)]
      simp
    · rw [List.getElem?_eq_none (by omega)]
      rw [if_neg (show ¬ n + 1 + k ≤ bs.length by omega)]
      rfl

/-- What stays true of the collection of the tree `t`. -/
def Whole (t : Nat) (l : List Entry) (w : World) : Prop :=
  ∃ L, WReach w L ∧ L t ∧ shown w.heap 0 ≠ [] ∧ w.entries t = l

theorem old_tree (w w' : World) (m : Nat) (s : Steady w w') (h : m < w.heap.trees.length) :
    m < w'.heap.trees.length ∧ w'.entries m = w.entries m := ⟨Nat.lt_of_lt_of_le h s.len, s.entries m h⟩

/-- A collection whose iteration gives, for the events `l`, models with the events `bs l` and whose subscript is the position. -/
theorem reversed_positions {c : Coll Nat} {t : Nat} (k : Nat) {l : List Entry} {bs : List (List Entry)}
    (hiter : ∀ w, Whole t l w → Whole t l (c.iter w).1 ∧ Steady w (c.iter w).1 ∧ (c.iter w).2.1.map (c.iter w).1.entries = bs ∧
      ∀ u ∈ (c.iter w).2.1, u < (c.iter w).1.heap.trees.length)
    (hitem : ∀ w (n : Nat), Whole t l w → c.item w n = ((c.iter w).1, match (c.iter w).2.1[n + k]? with
      | some u => .ok u
      | none => .error .modelNotFound)) (n : Nat) {w : World} (hw : Whole t l w) :
    let r := c.countdown n w
    r.2.1.map r.1.entries = (if n + k ≤ bs.length then ((bs.take (n + k)).drop k).reverse else []) ∧ r.2.2 = none ∧
      Steady w r.1 := by
  dsimp only
  obtain ⟨_, h2, h3, h4, _⟩ := countdown_spec c (Whole t l) (fun w u => w.entries u) (fun w u => u < w.heap.trees.length)
    (atPosition bs k) old_tree (fun w n h => by
    obtain ⟨a1, a2, a3, a4⟩ := hiter w h
    rw [hitem w n h]
    dsimp only
    refine ⟨a1, a2, ?_⟩
    unfold atPosition
    rw [← a3, List.getElem?_map]
    cases hk : (c.iter w).2.1[n + k]? with
    | none => rfl
    | some u => exact ⟨u, rfl, rfl, a4 u (List.mem_of_getElem? hk)⟩) n w hw
  rw [fromEnd_list bs k] at h3 h4
  exact ⟨h3, h4, h2⟩

theorem view_len {h : Heap} {t : Nat} (ht : t < h.trees.length) (call : ViewCall) :
    h.trees.length ≤ (view h t call).1.trees.length := by
  obtain ⟨_, _, y3, _⟩ := yieldViews_raw (ViewCall.lists h t call) h ht
  rw [view_eq, y3]
  omega

theorem subtree_len {h : Heap} {t : Nat} (ht : t < h.trees.length) (p : Nat → Bool) :
    h.trees.length ≤ (h.subtree t p).1.trees.length := view_len ht (.subtree p)

theorem listViews_len {t : Nat} (els : List (List Nat)) : ∀ {w : World}, t < w.heap.trees.length →
    w.heap.trees.length ≤ (w.listViews t els).1.heap.trees.length := by
  induction els with
  | nil => intro w _; exact Nat.le_refl _
  | cons el els ih =>
    intro w ht
    have h1 := subtree_len ht fun a => decide (a ∈ el)
    have h2 := ih (w := { w with heap := (w.heap.subtree t fun a => decide (a ∈ el)).1 }) (Nat.lt_of_lt_of_le ht h1)
    exact Nat.le_trans h1 h2

theorem whole_after {t : Nat} {l : List Entry} {w w' : World} {L' : Nat → Prop} (h : Whole t l w) (s : Steady w w')
    (r : WReach w' L') (ht : L' t) : Whole t l w' := by
  obtain ⟨L, h1, h2, h3, h4⟩ := h
  obtain ⟨g, _⟩ := reach_good (wreach_inv h1).1
  exact ⟨L', r, ht, shown_ne_of_entries s.project h3, by rw [s.entries t (g.lt t h2), h4]⟩

theorem patterns_iter {t : Nat} {l : List Entry} {w : World} (h : Whole t l w) :
    let r := (World.patternsColl t).iter w
    Whole t l r.1 ∧ Steady w r.1 ∧ r.2.1.map r.1.entries = (patternNumbers l).map (patternOf l) ∧
      ∀ u ∈ r.2.1, u < r.1.heap.trees.length := by
  obtain ⟨L, h1, h2, h3, h4⟩ := id h
  obtain ⟨g, _⟩ := reach_good (wreach_inv h1).1
  obtain ⟨p1, p2, p3, p4, p5, p6⟩ := iterPatterns_spec h1 h2 h3
  have s : Steady w (w.iterPatterns t).1 := ⟨p3, listViews_len _ (g.lt t h2), fun u hu => by
    rw [World.entries_eq, World.entries_eq, p6 u hu]
    unfold World.ev
    rw [p4]⟩
  obtain ⟨g', _⟩ := reach_good (wreach_inv p1).1
  exact ⟨whole_after h s p1 (.inl h2), s, by rw [h4] at p2; exact p2, fun u hu => g'.lt u (.inr hu)⟩

theorem sub_iter {σ : Type} {t : Nat} {l : List Entry} {w : World} (h : Whole t l w) (step : σ → Nat → Option Bool × σ) (s0 : σ)
    (rep : Int) :
    let r := w.subViews t step s0 rep
    Whole t l r.1 ∧ Steady w r.1 ∧ r.2.map r.1.entries = cutBy step (fun e : Entry => e.2.id) s0 l [] rep ∧
      ∀ u ∈ r.2, u < r.1.heap.trees.length := by
  obtain ⟨L, h1, h2, h3, h4⟩ := id h
  obtain ⟨g, _⟩ := reach_good (wreach_inv h1).1
  obtain ⟨p1, p2, p3, p4, p5⟩ := subViews_spec h1 h2 h3 step s0 rep
  have s : Steady w (w.subViews t step s0 rep).1 :=
    ⟨p3, view_len (g.lt t h2) (.subtrees σ (fun s a => step s (w.heap.idOf a)) s0 rep), p5⟩
  obtain ⟨g', _⟩ := reach_good (wreach_inv p1).1
  exact ⟨whole_after h s p1 (.inl h2), s, by rw [h4] at p2; exact p2, fun u hu => g'.lt u (.inr hu)⟩

theorem div_iter {t : Nat} {l : List Entry} {w : World} (h : Whole t l w) (sep : Nat) (ids : List Nat) :
    let r := w.divViews t sep ids
    Whole t l r.1 ∧ Steady w r.1 ∧ r.2.map r.1.entries = divBy (fun e : Entry => e.2.id) sep ids l [] true ∧
      ∀ u ∈ r.2, u < r.1.heap.trees.length := by
  obtain ⟨L, h1, h2, h3, h4⟩ := id h
  obtain ⟨g, _⟩ := reach_good (wreach_inv h1).1
  obtain ⟨p1, p2, p3, p4, p5⟩ := divViews_spec h1 h2 h3 sep ids
  have s : Steady w (w.divViews t sep ids).1 := ⟨p3, view_len (g.lt t h2) (.divide sep ids), p5⟩
  obtain ⟨g', _⟩ := reach_good (wreach_inv p1).1
  exact ⟨whole_after h s p1 (.inl h2), s, by rw [h4] at p2; exact p2, fun u hu => g'.lt u (.inr hu)⟩

theorem nodup_length_le {α : Type} [BEq α] [LawfulBEq α] {l : List α} : ∀ {m : List α}, l.Nodup → (∀ a ∈ l, a ∈ m) →
    l.length ≤ m.length := by
  induction l with
  | nil => intro m _ _; exact Nat.zero_le _
  | cons a l ih =>
    intro m hl h
    obtain ⟨h1, h2⟩ := List.nodup_cons.1 hl
    have hm : a ∈ m := h a (by simp)
    have := ih (m := m.erase a) h2 fun b hb => (List.mem_erase_of_ne (fun e : b = a => h1 (by rw [← e]; exact hb))).2 (h b (by simp [hb]))
    rw [List.length_erase_of_mem hm] at this
    have := List.length_pos_of_mem hm
    simp only [List.length_cons]
    omega

/-- C113 for patterns, in every state: `reversed(project.patterns)` gives the patterns in reverse order, but only as many of the
first ones as there are different numbers in `New` events.  Without such an event it raises `NoModelsFound`. -/
theorem C113_patterns_exact {w : World} {L : Nat → Prop} (r : WReach w L) {t : Nat} (ht : L t) (hne : shown w.heap 0 ≠ []) :
    let c := World.patternsColl t
    let n := (newNumbers (w.entries t)).length
    (c.reversed w).2.1.map (c.reversed w).1.entries = (((c.iter w).2.1.map (c.iter w).1.entries).take n).reverse ∧
      (c.reversed w).2.2 = (if n = 0 then some .noModelsFound else none) ∧ (c.reversed w).1.project = w.project := by
  dsimp only
  have hw : Whole t (w.entries t) w := ⟨L, r, ht, hne, rfl⟩
  have hlen : (World.patternsColl t).len w = if newNumbers (w.entries t) = [] then .error .noModelsFound
      else .ok (newNumbers (w.entries t)).length := lenPatterns_exact r ht
  obtain ⟨_, _, hi, _⟩ := patterns_iter hw
  rw [hi]
  unfold Coll.reversed
  rw [hlen]
  by_cases h0 : newNumbers (w.entries t) = []
  · rw [if_pos h0, h0]
    exact ⟨rfl, rfl, rfl⟩
  · have hn : (newNumbers (w.entries t)).length ≠ 0 := fun h => h0 (List.eq_nil_of_length_eq_zero h)
    rw [if_neg h0, if_neg hn]
    dsimp only
    have := reversed_positions (c := World.patternsColl t) 0 (fun w h => patterns_iter h) (fun w n h => by
      show w.getPattern t (.int n) = _
      rw [C50_index, if_neg (by omega)]
      rfl) (newNumbers (w.entries t)).length hw
    dsimp only at this
    obtain ⟨h1, h2, h3⟩ := this
    refine ⟨?_, h2, h3.project⟩
    rw [h1, Nat.add_zero, if_pos, List.drop_zero]
    rw [List.length_map]
    exact (nodup_length_le (eraseDups_nodup _) fun n hn => new_pattern hn)

/-- C113 when every pattern event follows a `New` event: `reversed(project.patterns)` is the reverse of a loop. -/
theorem C113_patterns_partial {w : World} {L : Nat → Prop} (r : WReach w L) {t : Nat} (ht : L t)
    (hne : shown w.heap 0 ≠ []) (hs : StartsWithNew (w.entries t)) (hnew : ∃ e ∈ w.entries t, e.2.id = 65) :
    let c := World.patternsColl t
    (c.reversed w).2.1.map (c.reversed w).1.entries = ((c.iter w).2.1.map (c.iter w).1.entries).reverse ∧
      (c.reversed w).2.2 = none := by
  obtain ⟨h1, _, _⟩ := C48_len_iid_partial r ht hne hs hnew
  obtain ⟨e1, e2, _⟩ := C113_patterns_exact r ht hne
  dsimp only at *
  rw [lenPatterns_exact r ht] at h1
  obtain ⟨e, m1, m2⟩ := hnew
  have hm : e.2.value ∈ newNumbers (w.entries t) := mem_newNumbers.2 ⟨e, m1, m2, rfl⟩
  have h0 : newNumbers (w.entries t) ≠ [] := fun h => by rw [h] at hm; cases hm
  rw [if_neg h0] at h1
  have h2 := Except.ok.inj h1
  have hn : (newNumbers (w.entries t)).length ≠ 0 := fun h => h0 (List.eq_nil_of_length_eq_zero h)
  rw [if_neg hn] at e2
  refine ⟨?_, e2⟩
  rw [e1, List.take_of_length_le]
  rw [List.length_map, h2]
  exact Nat.le_refl _

/-- C113 for arrangements, in every state: `reversed(project.arrangements)` is the reverse of a loop if the loop visits as many
arrangements as `len()` says, otherwise it visits none.  Without arrangements both raise `NoModelsFound`. -/
theorem C113_arrangements_exact {w : World} {L : Nat → Prop} (r : WReach w L) {t : Nat} (ht : L t) (hne : shown w.heap 0 ≠ []) :
    let c := World.arrangementsColl t
    (c.reversed w).2.1.map (c.reversed w).1.entries =
      (if c.len w = .ok (c.iter w).2.1.length then ((c.iter w).2.1.map (c.iter w).1.entries).reverse else []) ∧
      (c.reversed w).2.2 = (c.iter w).2.2 ∧ (c.reversed w).1.project = w.project := by
  dsimp only
  have hw : Whole t (w.entries t) w := ⟨L, r, ht, hne, rfl⟩
  unfold Coll.reversed
  cases hl : w.lenArrangements t with
  | error e =>
    have hi : (World.arrangementsColl t).iter w = (w, [], some e) := by
      show (match w.iterArrangements t with
        | (w', .ok us) => (w', us, none)
        | (w', .error e) => (w', [], some e)) = _
      unfold World.iterArrangements
      rw [hl]
    have hl' : (World.arrangementsColl t).len w = .error e := hl
    rw [hl', hi]
    exact ⟨rfl, rfl, rfl⟩
  | ok n =>
    have hl' : (World.arrangementsColl t).len w = .ok n := hl
    have hn : w.contains t 99 = true ∧ w.count t 99 = n := by
      unfold World.lenArrangements at hl
      split at hl
      · next h => exact ⟨h, Except.ok.inj hl⟩
      · cases hl
    have hcount : ∀ {w1 : World}, Whole t (w.entries t) w1 → w1.lenArrangements t = .ok n := by
      rintro w1 ⟨L1, r1, t1, n1, e1⟩
      unfold World.lenArrangements
      rw [if_pos, count_entries r1 t1, e1, ← count_entries r ht, hn.2]
      rw [contains_entries r1 t1, e1, ← contains_entries r ht]
      exact hn.1
    have hit : ∀ {w1 : World}, Whole t (w.entries t) w1 → w1.iterArrangements t =
        ((w1.subViews t arrangementStep false n).1, .ok (w1.subViews t arrangementStep false n).2) := by
      intro w1 h1
      unfold World.iterArrangements
      rw [hcount h1]
    have hiter : ∀ {w1 : World}, Whole t (w.entries t) w1 → (World.arrangementsColl t).iter w1 =
        ((w1.subViews t arrangementStep false n).1, (w1.subViews t arrangementStep false n).2, none) := by
      intro w1 h1
      show (match w1.iterArrangements t with
        | (w', .ok us) => (w', us, none)
        | (w', .error e) => (w', [], some e)) = _
      rw [hit h1]
    rw [hl', hiter hw]
    dsimp only
    have := reversed_positions (c := World.arrangementsColl t) (t := t) (l := w.entries t) 0 (fun w1 h1 => by
      rw [hiter h1]
      exact sub_iter h1 arrangementStep false n) (fun w1 k h1 => by
      rw [hiter h1]
      have e1 := C57_index w1 t k
      have e2 : (w1.getArrangement t (.int k)).1 = (w1.iterArrangements t).1 := by
        unfold World.getArrangement
        rcases w1.iterArrangements t with ⟨w2, e | us⟩ <;> rfl
      rw [hit h1] at e1 e2
      refine Prod.ext e2 ?_
      show (w1.getArrangement t (.int k)).2 = _
      rw [e1]
      dsimp only
      rw [if_neg (by omega)]
      rfl) n hw
    dsimp only at this
    obtain ⟨h1, h2, h3⟩ := this
    refine ⟨?_, h2, h3.project⟩
    obtain ⟨_, _, b3, _⟩ := sub_iter hw arrangementStep false (n : Int)
    rw [h1, b3, Nat.add_zero, List.drop_zero]
    have hb : ((w.subViews t arrangementStep false n).2).length =
        (cutBy arrangementStep (fun e : Entry => e.2.id) false (w.entries t) [] n).length := by
      rw [← b3, List.length_map]
    have hle : (cutBy arrangementStep (fun e : Entry => e.2.id) false (w.entries t) [] n).length ≤ n := by
      have := cutBy_length arrangementStep (fun e : Entry => e.2.id) (w.entries t) false [] (n : Int) (by omega)
      omega
    by_cases he : n = ((w.subViews t arrangementStep false n).2).length
    · rw [if_pos (by omega), if_pos (congrArg Except.ok he), List.take_of_length_le (by omega)]
    · rw [if_neg (by omega), if_neg (fun h => he (Except.ok.inj h))]

/-- C113 for inserts the mixer has parameters for: `reversed(insert)` is the reverse of a loop, except that it gives nothing if
there is no `Index` event. -/
theorem C113_slots_partial {w : World} {L : Nat → Prop} (r : WReach w L) {u : Nat} (hu : L u) (hne : shown w.heap 0 ≠ []) :
    let c := World.insertColl u true
    (c.reversed w).2.1.map (c.reversed w).1.entries =
      (if ∃ e ∈ w.entries u, e.2.id = 98 then ((c.iter w).2.1.map (c.iter w).1.entries).reverse else []) ∧
      (c.reversed w).2.2 = none ∧ (c.reversed w).1.project = w.project := by
  dsimp only
  have hw : Whole u (w.entries u) w := ⟨L, r, hu, hne, rfl⟩
  have hiter : ∀ w1 : World, (World.insertColl u true).iter w1 = ((w1.slotViews u).1, (w1.slotViews u).2, none) := fun _ => rfl
  have := reversed_positions (c := World.insertColl u true) (t := u) (l := w.entries u) 0 (fun w1 h1 => by
    rw [hiter]
    exact div_iter h1 98 [98, 128, 155, 201, 203, 212, 213]) (fun w1 k h1 => by
    rw [hiter]
    show w1.getSlot u true (.int k) = _
    rw [C95_index, if_neg (by omega)]
    rfl) (w.lenInsert u) hw
  dsimp only at this
  obtain ⟨h1, h2, h3⟩ := this
  obtain ⟨_, _, b3, _⟩ := div_iter hw 98 [98, 128, 155, 201, 203, 212, 213]
  have hlen := (C62_slots_partial r hu hne).1
  have hcount : w.lenInsert u = ((w.entries u).filter fun e => decide (e.2.id = 98)).length := count_entries r hu 98
  refine ⟨?_, h2, h3.project⟩
  show ((World.insertColl u true).countdown (w.lenInsert u) w).2.1.map _ = _
  have hb : (w.slotViews u).2.length = (divBy (fun e : Entry => e.2.id) 98 [98, 128, 155, 201, 203, 212, 213] (w.entries u) [] true).length := by
    rw [← b3, List.length_map]
    rfl
  have e1 : ((World.insertColl u true).reversed w).1 = ((World.insertColl u true).countdown (w.lenInsert u) w).1 := rfl
  rw [e1, h1, hiter]
  dsimp only
  have b3' : (w.slotViews u).2.map (w.slotViews u).1.entries =
    divBy (fun e : Entry => e.2.id) 98 [98, 128, 155, 201, 203, 212, 213] (w.entries u) [] true := b3
  rw [b3', Nat.add_zero, List.drop_zero, if_pos (by omega)]
  by_cases h : ∃ e ∈ w.entries u, e.2.id = 98
  · rw [if_pos h, List.take_of_length_le]
    obtain ⟨e, m1, m2⟩ := h
    have hm : e ∈ (w.entries u).filter fun e => decide (e.2.id = 98) := List.mem_filter.2 ⟨m1, decide_eq_true m2⟩
    have := List.length_pos_of_mem hm
    omega
  · rw [if_neg h]
    have : w.lenInsert u = 0 := by
      rw [hcount, List.filter_eq_nil_iff.2 fun e he => by simpa using fun hid => h ⟨e, he, hid⟩]
      rfl
    rw [this]
    rfl

/-- C113 for the mixer, in every state with `n` `Flags` events: `reversed(project.mixer)` visits nothing unless a loop visits more
than `n` inserts; then it visits the inserts at the positions from `n` down to 1. -/
theorem C113_mixer_exact {w : World} {L : Nat → Prop} (r : WReach w L) {t : Nat} (ht : L t) (hne : shown w.heap 0 ≠ [])
    (v : FLVersion) {n : Nat} (hn : (World.mixerColl t v).len w = .ok n) :
    let c := World.mixerColl t v
    let inserts := (c.iter w).2.1.map (c.iter w).1.entries
    (c.reversed w).2.1.map (c.reversed w).1.entries =
      (if n < inserts.length then ((inserts.take (n + 1)).drop 1).reverse else []) ∧ (c.reversed w).2.2 = none ∧
      (c.reversed w).1.project = w.project := by
  dsimp only
  have hw : Whole t (w.entries t) w := ⟨L, r, ht, hne, rfl⟩
  have hiter : ∀ w1 : World, (World.mixerColl t v).iter w1 = ((w1.iterInserts t v).1, (w1.iterInserts t v).2, none) := fun _ => rfl
  have := reversed_positions (c := World.mixerColl t v) (t := t) (l := w.entries t) 1 (fun w1 h1 => by
    rw [hiter]
    exact sub_iter h1 insertStep () (maxInserts v)) (fun w1 k h1 => by
    rw [hiter]
    show w1.getInsert t v (.int k) = _
    rw [C60_index, if_neg (by omega)]
    rfl) n hw
  dsimp only at this
  obtain ⟨h1, h2, h3⟩ := this
  obtain ⟨_, _, b3, _⟩ := sub_iter hw insertStep () (maxInserts v : Int)
  unfold Coll.reversed
  rw [hn]
  dsimp only
  refine ⟨?_, h2, h3.project⟩
  have b3' : (w.iterInserts t v).2.map (w.iterInserts t v).1.entries =
    cutBy insertStep (fun e : Entry => e.2.id) () (w.entries t) [] (maxInserts v) := b3
  rw [h1, hiter]
  dsimp only
  rw [b3']
  rfl

/-- C113 is false of the mixer: if a loop visits no more inserts than `len()` says, `reversed(project.mixer)` visits none. -/
theorem C113_mixer_refuted {w : World} {L : Nat → Prop} (r : WReach w L) {t : Nat} (ht : L t) (hne : shown w.heap 0 ≠ [])
    (v : FLVersion) {n : Nat} (hn : (World.mixerColl t v).len w = .ok n) (h : ((World.mixerColl t v).iter w).2.1.length ≤ n) :
    ((World.mixerColl t v).reversed w).2 = ([], none) := by
  obtain ⟨h1, h2, _⟩ := C113_mixer_exact r ht hne v hn
  rw [if_neg (by rw [List.length_map]; omega)] at h1
  exact Prod.ext (List.map_eq_nil_iff.1 h1) h2

namespace Spec

/-- What is seen of a channel: its number, its class, the events of its display group and its own events. -/
def chanShown (w : World) (c : Chan) : Value × ChClass × List Entry × List Entry := (c.iid, c.cls, w.entries c.group, w.entries c.tree)

/-- The channels of the parts of a rack, up to the first part that gives none. -/
def partsShown (groups : List Entry) : List (List Entry) → List (Value × ChClass × List Entry × List Entry) × Option Exc
  | [] => ([], none)
  | p :: ps =>
    match channelResult groups p with
    | .ok (iid, cls, g) => ((iid, cls, [g], p.filter isChannelEvent) :: (partsShown groups ps).1, (partsShown groups ps).2)
    | .error e => ([], some e)

/-- The first model with this number. -/
def byNumber {β : Type} (models : List (Value × β)) (e : Option Exc) (k : Nat) : Py (Value × β) :=
  match models.find? fun m => decide (m.1 = .lv (.int k)) with
  | some m => .ok m
  | none => .error (e.getD .channelNotFound)

end Spec

theorem rackLoop_shown {w : World} {L : Nat → Prop} (r : WReach w L) {gs : List Nat} {groups : List Entry}
    (hg : gs.map w.entries = groups.map fun e => [e]) (us : List Nat) : ∀ (parts : List (List Entry)),
    us.map w.entries = parts.map (fun b => b.filter isChannelEvent) → (∀ u ∈ us, L u) →
    (∀ b ∈ parts, ∀ v, valueOf (b.map Prod.snd) 201 = some v → ∃ s, v = .str s) →
    ((w.rackLoop gs us).1.map (chanShown w), (w.rackLoop gs us).2) = partsShown groups parts ∧
    ∀ c ∈ (w.rackLoop gs us).1, c.tree ∈ us ∧ w.entries c.group ≠ [] ∧ valueOf (w.events c.tree) 64 = some c.iid := by
  induction us with
  | nil =>
    intro parts h1 _ _
    cases parts with
    | nil => exact ⟨rfl, fun c hc => by cases hc⟩
    | cons b parts => simp at h1
  | cons u us ih =>
    intro parts h1 h2 h3
    cases parts with
    | nil => simp at h1
    | cons b parts =>
      rw [List.map_cons, List.map_cons] at h1
      obtain ⟨e1, e2⟩ := List.cons.inj h1
      have hc := channelOf_exact r (h2 u (by simp)) hg e1 (h3 b (by simp))
      obtain ⟨i1, i2⟩ := ih parts e2 (fun u hu => h2 u (by simp [hu])) (fun b hb => h3 b (by simp [hb]))
      unfold World.rackLoop partsShown
      cases hr : channelResult groups b with
      | error x =>
        rw [hr] at hc
        dsimp only at hc
        rw [hc]
        exact ⟨rfl, fun c hc => by cases hc⟩
      | ok q =>
        obtain ⟨iid, cls, g⟩ := q
        rw [hr] at hc
        dsimp only at hc
        obtain ⟨v, c1, c2⟩ := hc
        rw [c1]
        dsimp only
        rw [← i1]
        refine ⟨?_, ?_⟩
        · dsimp only
          rw [List.map_cons]
          unfold chanShown
          dsimp only
          rw [c2, e1]
        · intro c hc
          rcases List.mem_cons.1 hc with rfl | hc
          · refine ⟨by simp, by rw [c2]; simp, ?_⟩
            dsimp only
            have hv : valueOf (w.events u) 64 = valueOf (b.map Prod.snd) 64 := by
              rw [← World.entries_events, e1, valueOf_filter (by decide)]
            rw [hv]
            unfold channelResult at hr
            split at hr
            · split at hr
              · cases hr
                assumption
              · cases hr
            · cases hr
            · cases hr
          · obtain ⟨j1, j2, j3⟩ := i2 c hc
            exact ⟨by simp [j1], j2, j3⟩

theorem entries_lt {w : World} {u : Nat} (h : w.entries u ≠ []) : u < w.heap.trees.length := by
  apply Nat.lt_of_not_le
  intro hle
  apply h
  unfold World.entries Heap.lst
  rw [show w.heap.tree u = default by unfold Heap.tree; simp [List.getElem?_eq_none hle]]
  rfl

theorem rack_iter {t : Nat} {l : List Entry} {w : World} (h : Whole t l w) (htx : NamesAreText w.project.events) :
    let r := (World.rackColl t).iter w
    Whole t l r.1 ∧ Steady w r.1 ∧ (r.2.1.map (chanShown r.1), r.2.2) =
      partsShown (l.filter fun e => decide (e.2.id = 231)) (cutBefore beginsChannel [] l) ∧
      ∀ c ∈ r.2.1, c.tree < r.1.heap.trees.length ∧ c.group < r.1.heap.trees.length ∧ 
        valueOf (r.1.events c.tree) 64 = some c.iid := by
  obtain ⟨L, h1, h2, h3, h4⟩ := id h
  obtain ⟨g, _⟩ := reach_good (wreach_inv h1).1
  obtain ⟨a1, a2, a3, a4, a5⟩ := sepViews_spec h1 h2 h3 231
  have s1 : Steady w (w.sepViews t 231).1 := ⟨a3, view_len (g.lt t h2) (.separate 231), a5⟩
  obtain ⟨g1, _⟩ := reach_good (wreach_inv a1).1
  obtain ⟨b1, b2, b3, b4, b5⟩ := divViews_spec a1 (.inl h2) (shown_ne_of_entries a3 h3) 64 World.rackIds
  have s2 : Steady (w.sepViews t 231).1 ((w.sepViews t 231).1.divViews t 64 World.rackIds).1 :=
    ⟨b3, view_len (g1.lt t (.inl h2)) (.divide 64 World.rackIds), b5⟩
  have s := s1.trans s2
  have hi : (World.rackColl t).iter w = (((w.sepViews t 231).1.divViews t 64 World.rackIds).1,
    ((w.sepViews t 231).1.divViews t 64 World.rackIds).1.rackLoop (w.sepViews t 231).2
      ((w.sepViews t 231).1.divViews t 64 World.rackIds).2) := rfl
  dsimp only
  rw [hi]
  dsimp only
  rw [s1.entries t (g.lt t h2), h4] at b2
  rw [h4] at a2
  have a2' : (w.sepViews t 231).2.map ((w.sepViews t 231).1.divViews t 64 World.rackIds).1.entries =
      (l.filter (fun e => decide (e.2.id = 231))).map (fun e => [e]) := by
    rw [← a2]
    exact List.map_congr_left fun u hu => b5 u (g1.lt u (.inr hu))
  generalize hgs : (w.sepViews t 231).2 = gs at *
  generalize hww : ((w.sepViews t 231).1.divViews t 64 World.rackIds) = ww at *
  obtain ⟨w', us⟩ := ww
  dsimp only at *
  have hfil : (fun a : Entry => decide (a.2.id ∈ World.rackIds)) = isChannelEvent := funext rackIds_has
  have hus : us.map w'.entries = (cutBefore beginsChannel [] l).map (fun b => b.filter isChannelEvent) := by
    obtain ⟨x, xs, hx⟩ := cutBefore_cons beginsChannel l []
    rw [b2, hx]
    have := div_exact World.rackIds l [] [] x xs hx
    rw [hfil] at this
    exact this
  have hflat : (cutBefore beginsChannel [] l).flatten = l := cutBefore_flatten _ _ _
  have htext : ∀ b ∈ cutBefore beginsChannel [] l, ∀ v, valueOf (b.map Prod.snd) 201 = some v → ∃ s, v = .str s := by
    intro b hb v hv
    obtain ⟨e, he, hid, rfl⟩ := valueOf_mem hv
    obtain ⟨y, hy, rfl⟩ := List.mem_map.1 he
    refine htx y.2 ?_ (by rw [hid]; decide)
    have : y ∈ w.entries t := by rw [h4, ← hflat]; exact List.mem_flatten.2 ⟨b, hb, hy⟩
    have h5 : y.2 ∈ w.events t := by rw [← World.entries_events]; exact List.mem_map_of_mem this
    exact events_sub h1 h2 _ h5
  obtain ⟨i1, i2⟩ := rackLoop_shown b1 a2' us _ hus (fun u hu => .inr hu) htext
  obtain ⟨g2, _⟩ := reach_good (wreach_inv b1).1
  refine ⟨whole_after h s b1 (.inl (.inl h2)), s, i1, fun c hc => ?_⟩
  obtain ⟨j1, j2, j3⟩ := i2 c hc
  exact ⟨g2.lt c.tree (.inr j1), entries_lt j2, j3⟩

theorem find_shown {α β : Type} (f : α → Value × β) (p : α → Bool) (k : Nat) (cs : List α)
    (h : ∀ c ∈ cs, (p c = true ↔ (f c).1 = .lv (.int k))) :
    ((cs.map f).find? fun m => decide (m.1 = .lv (.int k))) = (cs.find? p).map f := by
  induction cs with
  | nil => rfl
  | cons c cs ih =>
    rw [List.map_cons, List.find?_cons, List.find?_cons, ih fun c hc => h c (by simp [hc])]
    have := h c (by simp)
    cases hp : p c with
    | true => rw [decide_eq_true (this.1 hp)]; rfl
    | false =>
      rw [decide_eq_false fun e => by rw [this.2 e] at hp; cases hp]

theorem find_append {α : Type} {p : α → Bool} {pre post : List α} {c : α} (hc : p c = true) (h : ∀ x ∈ pre, p x = false) :
    (pre ++ c :: post).find? p = some c := by
  induction pre with
  | nil => simp [hc]
  | cons a l ih =>
    rw [List.cons_append, List.find?_cons, h a (by simp)]
    exact ih fun x hx => h x (by simp [hx])

/-- C113 for the rack, in every state with texts as names: `reversed(project.channels)` visits the channels with the numbers
`n - 1`, `n - 2`, ..., where `n` is `len()`, the first of each number, and ends without an exception before the first number that no
channel has.  If the loop over the rack ends with an exception, this takes the place of a missing channel; an `IndexError` is not
passed on. -/
theorem C113_rack_exact {w : World} {L : Nat → Prop} (r : WReach w L) {t : Nat} (ht : L t) (hne : shown w.heap 0 ≠ [])
    (htx : NamesAreText w.project.events) {n : Nat} (hn : (World.rackColl t).len w = .ok n) :
    let c := World.rackColl t
    let models := (c.iter w).2.1.map (chanShown (c.iter w).1)
    ((c.reversed w).2.1.map (chanShown (c.reversed w).1), (c.reversed w).2.2) = fromEnd (byNumber models (c.iter w).2.2) n ∧
      (c.reversed w).1.project = w.project := by
  dsimp only
  have hw : Whole t (w.entries t) w := ⟨L, r, ht, hne, rfl⟩
  obtain ⟨_, _, m3, _⟩ := rack_iter hw htx
  obtain ⟨m4, m5⟩ := Prod.mk.inj m3
  have := countdown_spec (World.rackColl t) (fun w1 => Whole t (w.entries t) w1 ∧ NamesAreText w1.project.events) chanShown
    (fun w c => c.tree < w.heap.trees.length ∧ c.group < w.heap.trees.length)
    (byNumber (((World.rackColl t).iter w).2.1.map (chanShown ((World.rackColl t).iter w).1)) ((World.rackColl t).iter w).2.2)
    (fun w1 w2 c s o => ⟨⟨Nat.lt_of_lt_of_le o.1 s.len, Nat.lt_of_lt_of_le o.2 s.len⟩, by
      unfold chanShown
      rw [s.entries _ o.1, s.entries _ o.2]⟩)
    (fun w1 k hi => by
      obtain ⟨hi, hx⟩ := hi
      obtain ⟨i1, i2, i3, i4⟩ := rack_iter hi hx
      obtain ⟨i5, i6⟩ := Prod.mk.inj i3
      obtain ⟨L1, r1, t1, n1, _⟩ := hi
      obtain ⟨w2, cs, e, q1, q2, q3, q4⟩ := C73_get r1 t1 n1 hx (.int k)
      have hit : (World.rackColl t).iter w1 = (w2, cs, e) := q1
      rw [hit] at i1 i2 i4 i5 i6
      dsimp only at i1 i2 i4 i5 i6
      have hq : (w1.getChannel t (.int k)) = (w2, (w1.getChannel t (.int k)).2) := Prod.ext q2 rfl
      have hitem : (World.rackColl t).item w1 k = (match w1.getChannel t (.int k) with
        | (w', .ok (c, _)) => (w', .ok c)
        | (w', .error e) => (w', .error e)) := rfl
      have hfind : ∀ m : Option (Value × ChClass × List Entry × List Entry), 
          (cs.map (chanShown w2)).find? (fun m => decide (m.1 = .lv (.int k))) = m →
          byNumber (((World.rackColl t).iter w).2.1.map (chanShown ((World.rackColl t).iter w).1)) ((World.rackColl t).iter w).2.2 k =
            match m with
            | some m => .ok m
            | none => .error (e.getD .channelNotFound) := by
        intro m hm
        unfold byNumber
        rw [m4, m5, ← i5, ← i6, hm]
        cases m <;> rfl
      have hwant : ∀ c ∈ cs, ((decide ((chanShown w2 c).1 = .lv (.int k))) = true ↔ Wanted (.int k) (w2.events c.tree)) := by
        intro c hc
        unfold Wanted
        dsimp only
        rw [(i4 c hc).2.2, decide_eq_true_iff]
        exact ⟨fun h => by rw [← h]; rfl, fun h => Option.some.inj h⟩
      rcases q4 with ⟨pre, c, post, g1, g2, g3, g4⟩ | ⟨g1, g2⟩
      · rw [g4] at hq
        rw [hitem, hq]
        dsimp only
        refine ⟨⟨i1, by rw [i2.project]; exact hx⟩, i2, ?_⟩
        rw [hfind (some (chanShown w2 c)) ?_]
        · exact ⟨c, rfl, rfl, (i4 c (by rw [g1]; simp)).1, (i4 c (by rw [g1]; simp)).2.1⟩
        · rw [List.find?_map, g1]
          refine congrArg (Option.map (chanShown w2)) (find_append (p := (fun m : Value × ChClass × List Entry × List Entry => decide (m.1 = .lv (.int k))) ∘ chanShown w2) ?_ ?_)
          · exact (hwant c (by rw [g1]; simp)).2 g2
          · intro x hx
            cases hb : ((fun m : Value × ChClass × List Entry × List Entry => decide (m.1 = .lv (.int k))) ∘ chanShown w2) x with
            | false => rfl
            | true => exact absurd ((hwant x (by rw [g1]; simp [hx])).1 hb) (g3 x hx)
      · rw [g2] at hq
        rw [hitem, hq]
        dsimp only
        refine ⟨⟨i1, by rw [i2.project]; exact hx⟩, i2, ?_⟩
        rw [hfind none ?_]
        rw [List.find?_eq_none]
        intro m hm hd
        obtain ⟨c, hc, rfl⟩ := List.mem_map.1 hm
        exact g1 c hc ((hwant c hc).1 hd)) n w ⟨hw, htx⟩
  obtain ⟨_, h2, h3, h4, _⟩ := this
  unfold Coll.reversed
  rw [hn]
  exact ⟨Prod.ext h3 h4, h2.project⟩

theorem fromEnd_numbers {β : Type} (models : List (Value × β)) (h : ∀ k < models.length, (models.map Prod.fst)[k]? = some (.lv (.int k))) :
    ∀ n ≤ models.length, fromEnd (byNumber models none) n = ((models.take n).reverse, none) := by
  intro n
  induction n with
  | zero => intro _; rfl
  | succ n ih =>
    intro hn
    have hf : byNumber models none n = .ok models[n] := by
      unfold byNumber
      have e : models = models.take n ++ models[n] :: models.drop (n + 1) := by
        rw [List.getElem_cons_drop, List.take_append_drop]
      have : models.find? (fun m => decide (m.1 = .lv (.int n))) = some models[n] := by
        conv => lhs; rw [e]
        apply find_append
        · have := h n (by omega)
          rw [List.getElem?_map, List.getElem?_eq_getElem (by omega)] at this
          exact decide_eq_true (Option.some.inj this)
        · intro x hx
          obtain ⟨k, hk, rfl⟩ := List.mem_iff_getElem.1 hx
          rw [List.length_take] at hk
          rw [List.getElem_take]
          have := h k (by omega)
          rw [List.getElem?_map, List.getElem?_eq_getElem (by omega)] at this
          rw [Option.some.inj this]
          apply decide_eq_false
          intro hh
          injection hh with hh
          injection hh with hh
          omega
      rw [this]
    unfold fromEnd
    rw [hf]
    dsimp only
    have e : (models.take (n + 1)).reverse = models[n] :: (models.take n).reverse := by
      rw [List.take_add_one, List.getElem?_eq_getElem (by omega)]
      simp only [Option.toList_some, List.reverse_append, List.reverse_cons, List.reverse_nil, List.nil_append, List.cons_append]
    rw [ih (by omega), e]

/-- C113 for the rack when a loop visits the channels 0, 1, ..., in this order, as many as `len()` says: `reversed(project.channels)`
is the reverse of the loop. -/
theorem C113_rack_partial {w : World} {L : Nat → Prop} (r : WReach w L) {t : Nat} (ht : L t) (hne : shown w.heap 0 ≠ [])
    (htx : NamesAreText w.project.events) {w' : World} {cs : List Chan} (hi : (World.rackColl t).iter w = (w', cs, none))
    (hn : (World.rackColl t).len w = .ok cs.length) (h : ∀ k < cs.length, (cs.map Chan.iid)[k]? = some (.lv (.int k))) :
    let c := World.rackColl t
    (c.reversed w).2.1.map (chanShown (c.reversed w).1) = (cs.map (chanShown w')).reverse ∧ (c.reversed w).2.2 = none := by
  have h1 := (C113_rack_exact r ht hne htx hn).1
  dsimp only at h1 ⊢
  rw [hi] at h1
  dsimp only at h1
  rw [fromEnd_numbers _ ?_ _ (by simp), List.take_of_length_le (by simp)] at h1
  · exact Prod.mk.inj h1
  · intro k hk
    rw [List.map_map]
    exact h k (by simpa using hk)

/-- C113 is false of the rack: if no channel has the number `len() - 1`, `reversed(project.channels)` visits nothing. -/
theorem C113_rack_refuted {w : World} {L : Nat → Prop} (r : WReach w L) {t : Nat} (ht : L t) (hne : shown w.heap 0 ≠ [])
    (htx : NamesAreText w.project.events) {w' : World} {cs : List Chan} (hi : (World.rackColl t).iter w = (w', cs, none)) {n : Nat}
    (hn : (World.rackColl t).len w = .ok (n + 1)) (h : ∀ c ∈ cs, c.iid ≠ .lv (.int n)) :
    ((World.rackColl t).reversed w).2 = ([], none) := by
  have h1 := (C113_rack_exact r ht hne htx hn).1
  rw [hi] at h1
  dsimp only at h1
  have hf : byNumber (cs.map (chanShown w')) none n = .error .channelNotFound := by
    unfold byNumber
    rw [List.find?_eq_none.2]
    · rfl
    · intro m hm
      obtain ⟨c, hc, rfl⟩ := List.mem_map.1 hm
      intro hd
      exact h c hc (of_decide_eq_true hd)
  unfold fromEnd at h1
  rw [hf] at h1
  obtain ⟨h2, h3⟩ := Prod.mk.inj h1
  exact Prod.ext (List.map_eq_nil_iff.1 h2) h3

/-- C113 is false of layers: if no child has the number `len() - 1`, `reversed(layer)` visits nothing. -/
theorem C113_layer_refuted {w : World} {L : Nat → Prop} (r : WReach w L) {u : Nat} (hu : L u) {cs : List Chan}
    (h : ∀ v ∈ childNumbers (w.events u), ∃ c ∈ cs, c.iid = v) {n : Nat} (hn : w.lenLayer u = n + 1)
    (hc : ∀ c ∈ (w.iterLayer cs u).1, w.prop c.tree 64 ≠ some (.lv (.int n))) :
    ((World.layerColl cs u).reversed w).2 = ([], none) := by
  obtain ⟨l, h1, _, _, _, h2⟩ := C74_layer_partial r hu h
  rw [h1] at hc
  unfold Coll.reversed
  have hl : (World.layerColl cs u).len w = .ok (n + 1) := congrArg Except.ok hn
  rw [hl]
  dsimp only
  unfold Coll.countdown
  have hi : (World.layerColl cs u).item w n = (w, .error .channelNotFound) := by
    show (w, w.getChild cs u n) = _
    rcases h2 n with ⟨pre, c, post, e1, e2, _⟩ | ⟨_, e⟩
    · exact absurd e2 (hc c (by rw [e1]; simp))
    · rw [e]
  rw [hi]
  rfl

/-- C113 for tracks: `reversed(track)` is the reverse of the items. -/
theorem C113_track {α : Type} (items : List α) (w : World) : (itemsColl items).reversed w = (w, items.reverse, none) := by
  unfold Coll.reversed
  show (itemsColl items).countdown items.length w = _
  have key : ∀ n ≤ items.length, (itemsColl items).countdown n w = (w, (items.take n).reverse, none) := by
    intro n
    induction n with
    | zero => intro _; rfl
    | succ n ih =>
      intro hn
      unfold Coll.countdown
      have hi : (itemsColl items).item w n = (w, .ok items[n]) := by
        show (w, (match (if 0 ≤ (n : Int) then items[(n : Int).toNat]? else _) with
          | some m => Except.ok m
          | none => Except.error Exc.indexError)) = _
        rw [if_pos (by omega), Int.toNat_natCast, List.getElem?_eq_getElem (by omega)]
      rw [hi]
      dsimp only
      have e : (items.take (n + 1)).reverse = items[n] :: (items.take n).reverse := by
        rw [List.take_add_one, List.getElem?_eq_getElem (by omega)]
        simp only [Option.toList_some, List.reverse_append, List.reverse_cons, List.reverse_nil, List.nil_append, List.cons_append]
      rw [ih (by omega), e]
  rw [key _ (Nat.le_refl _), List.take_of_length_le (Nat.le_refl _)]

namespace Demo

/-- Two inserts with `Flags` events. -/
def twoInserts : Project := ⟨0, 1, 96, [
  ⟨199, .ascii, .str (PStr.lit "20.8.4"), 7⟩, ⟨64, .u16, .lv (.int 0), 2⟩,
  ⟨236, .unknown, .bytes [], 0⟩, ⟨204, .unicode, .str (PStr.lit "A"), 4⟩, ⟨147, .i32, .lv (.int 7), 4⟩,
  ⟨236, .unknown, .bytes [], 0⟩, ⟨204, .unicode, .str (PStr.lit "B"), 4⟩, ⟨147, .i32, .lv (.int 8), 4⟩]⟩

def twoInsertsWorld : World × Nat := (World.ofProject twoInserts).pickView 0 mixerStep false

theorem twoInserts_reach : WReach twoInsertsWorld.1 (fun u => u = 0 ∨ u = twoInsertsWorld.2) :=
  pickView_reach (.parsed twoInserts) rfl (by decide +kernel) mixerStep false

/-- Channels with the numbers 0 and 2. -/
def gaps : Project := ⟨0, 2, 96, [
  ⟨199, .ascii, .str (PStr.lit "20.8.4"), 7⟩, ⟨231, .unicode, .str (PStr.lit "All"), 8⟩,
  ⟨64, .u16, .lv (.int 0), 2⟩, ⟨21, .u8, .lv (.int 0), 1⟩, ⟨145, .i32, .lv (.int 0), 4⟩,
  ⟨64, .u16, .lv (.int 2), 2⟩, ⟨21, .u8, .lv (.int 0), 1⟩, ⟨145, .i32, .lv (.int 0), 4⟩]⟩

theorem gaps_reach : WReach (rackOf gaps).1 (fun u => u = 0 ∨ u = (rackOf gaps).2) :=
  pickView_reach (.parsed gaps) rfl (by decide +kernel) channelsStep ()

end Demo

open Demo in
/-- Two patterns: the second one first. -/
example : WReach tuneWorld.1 (fun u => u = 0 ∨ u = tuneWorld.2) ∧ shown tuneWorld.1.heap 0 ≠ [] ∧
    (let r := (World.patternsColl tuneWorld.2).reversed tuneWorld.1
    (r.2.1.map fun u => (r.1.events u).map Event.id) = [[65, 223, 65, 193, 150], [65, 224, 65, 193]]) :=
  ⟨tune_reach, by decide +kernel, by decide +kernel⟩

open Demo in
/-- A mixer with two inserts: `len()` is 2 and a loop visits both; `reversed()` visits none. -/
example : WReach twoInsertsWorld.1 (fun u => u = 0 ∨ u = twoInsertsWorld.2) ∧ shown twoInsertsWorld.1.heap 0 ≠ [] ∧
    (World.mixerColl twoInsertsWorld.2 ⟨20, 8, 4, some 0⟩).len twoInsertsWorld.1 = .ok 2 ∧
    ((World.mixerColl twoInsertsWorld.2 ⟨20, 8, 4, some 0⟩).iter twoInsertsWorld.1).2.1.length = 2 ∧
    ((World.mixerColl twoInsertsWorld.2 ⟨20, 8, 4, some 0⟩).reversed twoInsertsWorld.1).2 = ([], none) :=
  ⟨twoInserts_reach, by decide +kernel, by decide +kernel, by decide +kernel, by decide +kernel⟩

open Demo in
/-- Channels 0, 1, 2: the reverse of the loop.  Channels 0 and 2: nothing.  The layer with the children 0 and 2: nothing. -/
example : (let r := (World.rackColl (rackOf band).2).reversed (rackOf band).1
    (r.2.1.map Chan.iid, r.2.2) = ([.lv (.int 2), .lv (.int 1), .lv (.int 0)], none)) ∧
    WReach (rackOf gaps).1 (fun u => u = 0 ∨ u = (rackOf gaps).2) ∧ shown (rackOf gaps).1.heap 0 ≠ [] ∧
    (∀ e ∈ (rackOf gaps).1.project.events, e.id ∉ [192, 201, 203]) ∧
    (World.rackColl (rackOf gaps).2).len (rackOf gaps).1 = .ok 2 ∧
    (((World.rackColl (rackOf gaps).2).iter (rackOf gaps).1).2.1.map Chan.iid = [.lv (.int 0), .lv (.int 2)]) ∧
    ((World.rackColl (rackOf gaps).2).reversed (rackOf gaps).1).2 = ([], none) ∧
    (let i := (World.rackColl (rackOf band).2).iter (rackOf band).1
    ((World.layerColl i.2.1 4).iter i.1).2.1.map Chan.iid = [.lv (.int 0), .lv (.int 2)] ∧
      ((World.layerColl i.2.1 4).reversed i.1).2 = ([], none)) :=
  ⟨by decide +kernel, gaps_reach, by decide +kernel, by decide +kernel, by decide +kernel, by decide +kernel, by decide +kernel,
    by decide +kernel⟩

open Demo in
/-- Three slots from the last to the first; two arrangements. -/
example : (let r := (World.insertColl 0 true).reversed slotWorld
    (r.2.1.map fun u => (r.1.events u).length) = [2, 2, 1] ∧ r.2.2 = none) ∧
    (let w := World.ofProject ⟨0, 1, 96, [⟨199, .ascii, .str (PStr.lit "20.8.3"), 7⟩, ⟨99, .u16, .lv (.int 0), 2⟩,
      ⟨241, .unicode, .str (PStr.lit "A"), 4⟩, ⟨99, .u16, .lv (.int 1), 2⟩, ⟨100, .u16, .lv (.int 0), 2⟩]⟩
    let r := (World.arrangementsColl 0).reversed w
    (r.2.1.map fun u => (r.1.events u).map Event.id) = [[99], [99, 241]] ∧ r.2.2 = none) := by decide +kernel

end PyFLP
