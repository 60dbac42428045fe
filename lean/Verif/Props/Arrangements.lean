import Verif.CollectionLemmas
import Verif.Props.Patterns
/-!
# Arrangements and their tracks (C56 – C58)
-/

namespace PyFLP

open Spec Heap

theorem prop_spec {w : World} {L : Nat → Prop} (r : WReach w L) {u : Nat} (hu : L u) (id : Nat) :
    w.prop u id = valueOf (w.events u) id := by
  unfold World.prop Descr.read
  rcases getEvent_spec r hu [id] with ⟨k, ref, h1, h2, h3, h4⟩ | ⟨h0, h1, h2⟩ | ⟨h0, _⟩ | ⟨h0, _⟩
  · rw [show (eventProp [id]).ids = [id] from rfl, h1]
    dsimp only [eventProp]
    rcases h4 with ⟨h4, _⟩ | ⟨a, b, p, q, g1, g2, g3, g4, g5⟩
    · cases h4
    · have hid : (w.ev ref).id = id := by
        have : (w.ev ref).id ∈ [id] := by rw [g1]; simp
        simpa using this
      unfold valueOf
      have hp : p.find? (fun e => e.id == id) = none := by
        rw [List.find?_eq_none]
        intro x hx
        have := g4 x hx
        rw [hid] at this
        simpa using this
      rw [g3, List.find?_append, hp, List.find?_cons, hid]
      simp
  · rw [show (eventProp [id]).ids = [id] from rfl, h1]
    dsimp only [eventProp]
    unfold valueOf
    have hp : (w.events u).find? (fun e => e.id == id) = none := by
      rw [List.find?_eq_none]
      intro x hx
      simpa using h2 x hx
    rw [hp]
    rfl
  · cases h0
  · cases h0

theorem count_entries {w : World} {L : Nat → Prop} (r : WReach w L) {u : Nat} (hu : L u) (id : Nat) :
    w.count u id = ((w.entries u).filter fun e => decide (e.2.id = id)).length := by
  unfold World.count
  rw [get_entries r hu, List.length_map]

namespace Spec

/-- Events of arrangements: `New`, name, playlist, time markers, tracks. -/
def isArrangementEvent (e : Entry) : Bool := decide (e.2.id ∈ [99, 241, 233, 33, 34, 148, 205, 238, 239])

/-- The events come in blocks that begin with a `New` event, followed by a `Current` event;
there may be events of the first arrangement before its `New` event. -/
structure ArrangementBlocks (l pre : List Entry) (blocks : List (List Entry)) (cur : Entry) (rest : List Entry) : Prop where
  split : l = pre ++ blocks.flatten ++ cur :: rest
  before : ∀ e ∈ pre, e.2.id ≠ 99 ∧ e.2.id ≠ 100
  block : ∀ b ∈ blocks, ∃ new tl, b = new :: tl ∧ new.2.id = 99 ∧ ∀ e ∈ tl, e.2.id ≠ 99 ∧ e.2.id ≠ 100
  some : blocks ≠ []
  current : cur.2.id = 100
  after : ∀ e ∈ rest, e.2.id ≠ 99

/-- `pre` joined to the first block. -/
def joinFirst {α : Type} (pre : List α) : List (List α) → List (List α)
  | [] => []
  | b :: bs => (pre ++ b) :: bs

end Spec

theorem arrangementID_has (id : Nat) :
    (arrangementID.has id || timeMarkerID.has id || trackID.has id) =
      decide (id ∈ [99, 241, 233, 33, 34, 148, 205, 238, 239]) := by
  rw [Bool.eq_iff_iff]
  simp only [arrangementID, timeMarkerID, trackID, IdEnum.has, List.any_cons, List.any_nil, Bool.or_eq_true, beq_iff_eq,
    Bool.or_false, decide_eq_true_eq, List.mem_cons, List.not_mem_nil, or_false]
  constructor <;> intro h <;> omega

/-- Events that are neither `New` nor `Current` are collected. -/
theorem cut_skip (s : Bool) (tl l : List Entry) (el : List Entry) {rep : Int} (hr : rep ≠ 0)
    (h : ∀ e ∈ tl, e.2.id ≠ 99 ∧ e.2.id ≠ 100) :
    cutBy arrangementStep (fun e : Entry => e.2.id) s (tl ++ l) el rep =
      cutBy arrangementStep (fun e : Entry => e.2.id) s l (el ++ tl.filter isArrangementEvent) rep := by
  induction tl generalizing el with
  | nil => simp
  | cons e tl ih =>
    obtain ⟨h1, h2⟩ := h e (by simp)
    rw [List.cons_append, cutBy, if_neg hr]
    have hst : arrangementStep s e.2.id = (if isArrangementEvent e then some true else none, s) := by
      unfold arrangementStep
      rw [if_neg (fun c => h1 c.1), arrangementID_has]
      have : (s || e.2.id == 99) = s := by simp [h1]
      dsimp only
      rw [this, if_neg h2]
      unfold isArrangementEvent
      split <;> rfl
    rw [hst]
    cases hi : isArrangementEvent e with
    | true => simp [hi, ih _ (fun e he => h e (by simp [he]))]
    | false => simp [hi, ih _ (fun e he => h e (by simp [he]))]

theorem cut_blocks (blocks : List (List Entry)) {cur : Entry} (rest : List Entry) (hc : cur.2.id = 100)
    (hb : ∀ b ∈ blocks, ∃ new tl, b = new :: tl ∧ new.2.id = 99 ∧ ∀ e ∈ tl, e.2.id ≠ 99 ∧ e.2.id ≠ 100) :
    ∀ el : List Entry, cutBy arrangementStep (fun e : Entry => e.2.id) true (blocks.flatten ++ cur :: rest) el
      ((blocks.length : Int) + 1) = el :: blocks.map fun b => b.filter isArrangementEvent := by
  induction blocks with
  | nil =>
    intro el
    have hst : arrangementStep true 100 = (some false, true) := by decide
    rw [List.flatten_nil, List.nil_append, cutBy, if_neg (by simp), hc, hst]
    cases rest <;> simp [cutBy]
  | cons b blocks ih =>
    intro el
    obtain ⟨new, tl, rfl, hn, htl⟩ := hb b (by simp)
    have hst : arrangementStep true 99 = (some false, true) := by decide
    have hnew : isArrangementEvent new = true := by unfold isArrangementEvent; rw [hn]; decide
    rw [List.flatten_cons, List.cons_append, List.cons_append, cutBy, if_neg (by simp; omega), hn, hst]
    dsimp only
    rw [List.append_assoc, cut_skip true tl _ [new] (by simp; omega) htl]
    have e : ((new :: tl) :: blocks).length + 1 - 1 = (blocks.length : Int) + 1 := by simp
    rw [e, ih fun b h => hb b (by simp [h]), List.map_cons, List.filter_cons, if_pos hnew]
    rfl

/-- The number of `New` events. -/
theorem blocks_count {l pre : List Entry} {blocks : List (List Entry)} {cur : Entry} {rest : List Entry}
    (h : ArrangementBlocks l pre blocks cur rest) :
    (l.filter fun e => decide (e.2.id = 99)).length = blocks.length := by
  have hf : ∀ l : List Entry, (∀ e ∈ l, e.2.id ≠ 99) → l.filter (fun e => decide (e.2.id = 99)) = [] := by
    intro l hl
    rw [List.filter_eq_nil_iff]
    intro e he
    simpa using hl e he
  have hbl : ∀ bs : List (List Entry),
      (∀ b ∈ bs, ∃ new tl, b = new :: tl ∧ new.2.id = 99 ∧ ∀ e ∈ tl, e.2.id ≠ 99 ∧ e.2.id ≠ 100) →
      (bs.flatten.filter fun e => decide (e.2.id = 99)).length = bs.length := by
    intro bs hbs
    induction bs with
    | nil => rfl
    | cons b bs ih =>
      obtain ⟨new, tl, rfl, hn, htl⟩ := hbs b (by simp)
      rw [List.flatten_cons, List.filter_append, List.length_append, ih fun b h => hbs b (by simp [h]),
        List.filter_cons, if_pos (by simp [hn]), hf tl fun e he => (htl e he).1]
      simp; omega
  rw [h.split, List.filter_append, List.filter_append, hf pre fun e he => (h.before e he).1, List.filter_cons,
    if_neg (by simp [h.current]), hf rest h.after, List.nil_append, List.append_nil]
  exact hbl blocks h.block

/-! ### C56 -/

/-- C56 where the events come in blocks and a `Current` event follows the last one: iterating
over arrangements yields one arrangement per block, showing exactly its arrangement, time
marker and track events; their number is `len()`.  Missing: other orders of the events, where
this fails. -/
theorem C56_arrangements_partial {w : World} {L : Nat → Prop} (r : WReach w L) {t : Nat} (ht : L t)
    (hne : shown w.heap 0 ≠ []) {pre : List Entry} {blocks : List (List Entry)} {cur : Entry} {rest : List Entry}
    (h : ArrangementBlocks (w.entries t) pre blocks cur rest) :
    ∃ w' us, w.iterArrangements t = (w', .ok us) ∧ w.lenArrangements t = .ok us.length ∧
      us.map w'.entries = (joinFirst pre blocks).map (fun b => b.filter isArrangementEvent) ∧
      WReach w' (fun u => L u ∨ u ∈ us) ∧ w'.project = w.project := by
  obtain ⟨h1, h2, h3, _⟩ := subViews_spec r ht hne arrangementStep false ((w.count t 99 : Nat) : Int)
  obtain ⟨b, bs, hbs⟩ : ∃ b bs, blocks = b :: bs := by
    cases hb : blocks with
    | nil => exact absurd hb h.some
    | cons b bs => exact ⟨b, bs, rfl⟩
  obtain ⟨new, tl, rfl, hn, htl⟩ := h.block b (by simp [hbs])
  have hcount : w.count t 99 = blocks.length := by rw [count_entries r ht, blocks_count h]
  have hlen : w.lenArrangements t = .ok blocks.length := by
    unfold World.lenArrangements
    rw [hcount, if_pos]
    rw [contains_entries r ht]
    exact ⟨new, by rw [h.split, hbs]; simp, hn⟩
  have hviews : (w.subViews t arrangementStep false ((w.count t 99 : Nat) : Int)).2.map
      (w.subViews t arrangementStep false ((w.count t 99 : Nat) : Int)).1.entries =
      (joinFirst pre blocks).map (fun b => b.filter isArrangementEvent) := by
    rw [h2, hcount, h.split, hbs]
    rw [List.append_assoc, cut_skip false pre _ [] (by simp; omega) h.before]
    rw [List.flatten_cons, List.cons_append, List.cons_append, cutBy, if_neg (by simp; omega), hn]
    have hst : arrangementStep false 99 = (some true, true) := by decide
    have hnew : isArrangementEvent new = true := by unfold isArrangementEvent; rw [hn]; decide
    rw [hst]
    dsimp only
    rw [List.append_assoc, cut_skip true tl _ _ (by simp; omega) htl]
    have e : ((((new :: tl) :: bs).length : Nat) : Int) = (bs.length : Int) + 1 := by simp
    rw [e, cut_blocks bs rest h.current fun b hb => h.block b (by simp [hbs, hb])]
    unfold joinFirst
    rw [List.map_cons, List.filter_append, List.filter_cons, if_pos hnew]
    simp
  refine ⟨_, _, ?_, ?_, hviews, h1, h3⟩
  · unfold World.iterArrangements
    rw [hlen, ← hcount]
  · rw [hlen]
    have := congrArg List.length hviews
    rw [List.length_map, List.length_map] at this
    rw [this, hbs]
    rfl

namespace Demo

/-- Two arrangements: the first has a time marker and two tracks, the second a name and one track. -/
def album : Project := ⟨0, 1, 96, [
  ⟨199, .ascii, .str (PStr.lit "20.8.4"), 7⟩, ⟨64, .u16, .lv (.int 0), 2⟩,
  ⟨99, .u16, .lv (.int 0), 2⟩, ⟨241, .unicode, .str (PStr.lit "A"), 4⟩, ⟨148, .u32, .lv (.int 96), 4⟩,
  ⟨238, .struct .track, .fields [("iid", some (.int 1))], 4⟩, ⟨238, .struct .track, .fields [("iid", some (.int 2))], 4⟩,
  ⟨239, .unicode, .str (PStr.lit "T"), 4⟩,
  ⟨99, .u16, .lv (.int 1), 2⟩, ⟨241, .unicode, .str (PStr.lit "B"), 4⟩,
  ⟨238, .struct .track, .fields [("iid", some (.int 1))], 4⟩,
  ⟨100, .u16, .lv (.int 1), 2⟩, ⟨152, .u16t, .lv (.pair 0 96), 4⟩]⟩

def albumWorld : World × Nat := (World.ofProject album).pickView 0 arrangementsStep false

theorem album_reach : WReach albumWorld.1 (fun u => u = 0 ∨ u = albumWorld.2) :=
  pickView_reach (.parsed album) rfl (by decide +kernel) arrangementsStep false

def albumEntries : List Entry := albumWorld.1.entries albumWorld.2

theorem album_blocks : ArrangementBlocks (albumWorld.1.entries albumWorld.2) []
    [albumEntries.take 6, (albumEntries.drop 6).take 3] (albumEntries.getD 9 default) (albumEntries.drop 10) where
  split := by decide +kernel
  before := by simp
  block := by
    intro b hb
    rw [List.mem_cons, List.mem_singleton] at hb
    rcases hb with rfl | rfl
    · exact ⟨albumEntries.getD 0 default, (albumEntries.take 6).drop 1, by decide +kernel, by decide +kernel, by decide +kernel⟩
    · exact ⟨albumEntries.getD 6 default, (albumEntries.drop 7).take 2, by decide +kernel, by decide +kernel, by decide +kernel⟩
  some := by simp
  current := by decide +kernel
  after := by decide +kernel

end Demo

open Demo in
example : WReach albumWorld.1 (fun u => u = 0 ∨ u = albumWorld.2) ∧ shown albumWorld.1.heap 0 ≠ [] ∧
    ∃ us w', albumWorld.1.iterArrangements albumWorld.2 = (w', .ok us) ∧
      us.map (fun u => (w'.events u).map Event.id) = [[99, 241, 148, 238, 238, 239], [99, 241, 238]] := by
  refine ⟨album_reach, by decide +kernel, [2, 3], (albumWorld.1.iterArrangements albumWorld.2).1, ?_, by decide +kernel⟩
  have : (albumWorld.1.iterArrangements albumWorld.2).2 = .ok [2, 3] := by decide +kernel
  rw [← this]

namespace Demo

/-- An arrangement without a `Current` event behind it. -/
def lost : Project := ⟨0, 1, 96, [
  ⟨199, .ascii, .str (PStr.lit "20.8.4"), 7⟩, ⟨64, .u16, .lv (.int 0), 2⟩,
  ⟨100, .u16, .lv (.int 0), 2⟩, ⟨99, .u16, .lv (.int 0), 2⟩, ⟨241, .unicode, .str (PStr.lit "A"), 4⟩]⟩

def lostWorld : World × Nat := (World.ofProject lost).pickView 0 arrangementsStep false

end Demo

/-- C56 is false when no `Current` event follows: the only arrangement is missing.  An empty
one takes its place, and `len()` is 1. -/
theorem C56_arrangements_refuted : ∃ (w : World) (t : Nat) (L : Nat → Prop), WReach w L ∧ L t ∧ shown w.heap 0 ≠ [] ∧
    (w.entries t).map (fun e => e.2.id) = [100, 99, 241] ∧ w.lenArrangements t = .ok 1 ∧
    ∃ u, (w.iterArrangements t).2 = .ok [u] ∧ (w.iterArrangements t).1.entries u = [] :=
  ⟨Demo.lostWorld.1, Demo.lostWorld.2, _,
    pickView_reach (.parsed Demo.lost) rfl (by decide +kernel) arrangementsStep false, .inr rfl,
    by decide +kernel, by decide +kernel, by decide +kernel, 2, by decide +kernel, by decide +kernel⟩

theorem cutBy_sublist {σ α : Type} (step : σ → Nat → Option Bool × σ) (idOf : α → Nat) (l : List α) :
    ∀ (s : σ) (el : List α) (rep : Int), (cutBy step idOf s l el rep).flatten.Sublist (el ++ l) := by
  induction l with
  | nil => intro s el rep; simp [cutBy]
  | cons a l ih =>
    intro s el rep
    rw [cutBy]
    split
    · simp
    · cases (step s (idOf a)).1 with
      | none => exact (ih _ _ _).trans (List.Sublist.append (List.Sublist.refl _) (List.sublist_cons_self ..))
      | some b =>
        cases b with
        | true => simpa using ih (step s (idOf a)).2 (el ++ [a]) rep
        | false =>
          dsimp only
          rw [List.flatten_cons]
          exact List.Sublist.append (List.Sublist.refl _) (ih (step s (idOf a)).2 [a] (rep - 1))

theorem cutBy_length {σ α : Type} (step : σ → Nat → Option Bool × σ) (idOf : α → Nat) (l : List α) :
    ∀ (s : σ) (el : List α) (rep : Int), 0 ≤ rep → ((cutBy step idOf s l el rep).length : Int) ≤ rep := by
  induction l with
  | nil => intro s el rep h; simpa [cutBy] using h
  | cons a l ih =>
    intro s el rep h
    rw [cutBy]
    split
    · simpa using h
    · cases (step s (idOf a)).1 with
      | none => exact ih _ _ _ h
      | some b =>
        cases b with
        | true => exact ih _ _ _ h
        | false =>
          dsimp only
          rw [List.length_cons]
          have := ih (step s (idOf a)).2 [a] (rep - 1) (by omega)
          omega

theorem cut_one (l : List Entry) : ∀ (s : Bool) (el : List Entry) (rep : Int),
    (el.filter fun e => decide (e.2.id = 99)).length ≤ 1 →
    (s = false → (el.filter fun e => decide (e.2.id = 99)).length = 0) →
    ∀ v ∈ cutBy arrangementStep (fun e : Entry => e.2.id) s l el rep,
      (v.filter fun e => decide (e.2.id = 99)).length ≤ 1 := by
  induction l with
  | nil => intro s el rep _ _ v hv; cases hv
  | cons e l ih =>
    intro s el rep h1 h2 v hv
    rw [cutBy] at hv
    split at hv
    · cases hv
    · by_cases hid : e.2.id = 99
      · cases s with
        | true =>
          have hst : arrangementStep true e.2.id = (some false, true) := by rw [hid]; decide
          rw [hst] at hv
          rcases List.mem_cons.1 hv with rfl | hv
          · exact h1
          · exact ih true [e] _ (by simp [hid]) (by simp) v hv
        | false =>
          have hst : arrangementStep false e.2.id = (some true, true) := by rw [hid]; decide
          rw [hst] at hv
          have h0 := h2 rfl
          refine ih true (el ++ [e]) _ ?_ (by simp) v hv
          rw [List.filter_append, List.length_append, h0]
          simp [hid]
      · have hs : (arrangementStep s e.2.id).2 = s := by
          unfold arrangementStep
          rw [if_neg (fun c => hid c.1)]
          have : (s || e.2.id == 99) = s := by simp [hid]
          dsimp only
          rw [this]
          split
          · rfl
          · split <;> rfl
        rw [hs] at hv
        have hf : ∀ el : List Entry, ((el ++ [e]).filter fun e => decide (e.2.id = 99)) =
            el.filter fun e => decide (e.2.id = 99) := by
          intro el
          rw [List.filter_append]
          simp [hid]
        cases ha : (arrangementStep s e.2.id).1 with
        | none =>
          rw [ha] at hv
          exact ih s el _ h1 h2 v hv
        | some b =>
          rw [ha] at hv
          cases b with
          | true => exact ih s (el ++ [e]) _ (by rw [hf]; exact h1) (by rw [hf]; exact h2) v hv
          | false =>
            rcases List.mem_cons.1 hv with rfl | hv
            · exact h1
            · exact ih s [e] _ (by simp [hid]) (by simp [hid]) v hv

/-- C56 in part, for all orders of the events: no two arrangements share an event, all events
of a later one come after those of an earlier one, there are at most `len()` arrangements and
none has two `New` events. -/
theorem C56_disjoint_partial {w : World} {L : Nat → Prop} (r : WReach w L) {t : Nat} (ht : L t)
    (hne : shown w.heap 0 ≠ []) {w' : World} {us : List Nat} (h : w.iterArrangements t = (w', .ok us)) :
    (us.flatMap w'.entries).Sublist (w.entries t) ∧ (∃ n, w.lenArrangements t = .ok n ∧ us.length ≤ n) ∧
      ∀ u ∈ us, ((w'.entries u).filter fun e => decide (e.2.id = 99)).length ≤ 1 := by
  obtain ⟨h1, h2, h3, _⟩ := subViews_spec r ht hne arrangementStep false ((w.count t 99 : Nat) : Int)
  unfold World.iterArrangements at h
  cases hl : w.lenArrangements t with
  | error e => rw [hl] at h; cases h
  | ok n =>
    rw [hl] at h
    have hn : n = w.count t 99 := by
      unfold World.lenArrangements at hl
      split at hl
      · cases hl; rfl
      · cases hl
    subst hn
    cases h
    have hlen := congrArg List.length h2
    rw [List.length_map] at hlen
    refine ⟨?_, ⟨_, rfl, ?_⟩, ?_⟩
    · unfold List.flatMap
      rw [h2]
      simpa using cutBy_sublist arrangementStep (fun e : Entry => e.2.id) (w.entries t) false [] ((w.count t 99 : Nat) : Int)
    · have := cutBy_length arrangementStep (fun e : Entry => e.2.id) (w.entries t) false [] ((w.count t 99 : Nat) : Int) (by omega)
      omega
    · intro u hu
      have hm : _ ∈ (w.subViews t arrangementStep false ((w.count t 99 : Nat) : Int)).2.map
          (w.subViews t arrangementStep false ((w.count t 99 : Nat) : Int)).1.entries :=
        List.mem_map.2 ⟨u, hu, rfl⟩
      rw [h2] at hm
      exact cut_one (w.entries t) false [] _ (by simp) (by simp) _ hm

/-! ### C57 -/

/-- C57. `arrangements[i]` for a number: the arrangement at position `i` of the iteration, else
`ModelNotFound`. -/
theorem C57_index (w : World) (t : Nat) (i : Int) :
    (w.getArrangement t (.int i)).2 =
      match (w.iterArrangements t).2 with
      | .error e => .error e
      | .ok us =>
        if i < 0 then .error .modelNotFound
        else match us[i.toNat]? with
          | some u => .ok u
          | none => .error .modelNotFound := by
  unfold World.getArrangement
  rcases w.iterArrangements t with ⟨w1, e | us⟩
  · rfl
  · dsimp only
    rw [getItem_int]
    by_cases h : i < 0
    · rw [if_neg (by omega), if_pos h]
    · rw [if_pos (by omega), if_neg h, Int.sub_zero, List.getElem?_map]
      cases us[i.toNat]? <;> rfl

theorem find_named {w' : World} {us : List Nat} {id : Nat} (s : PStr)
    (h : ∀ u ∈ us, w'.prop u id = valueOf (w'.events u) id) (idx : Int) :
    getItem (.str s) (us.map fun u => (u, w'.prop u id)) idx =
      match us.find? fun u => valueOf (w'.events u) id == some (.str s) with
      | some u => .ok u
      | none => .error .modelNotFound := by
  rw [getItem_str, List.find?_map]
  have : ∀ l : List Nat, (∀ u ∈ l, u ∈ us) →
      l.find? ((fun m : Nat × Option Value => decide (m.2 = some (.str s))) ∘ fun u => (u, w'.prop u id)) =
      l.find? (fun u => valueOf (w'.events u) id == some (.str s)) := by
    intro l hl
    induction l with
    | nil => rfl
    | cons u l ih =>
      rw [List.find?_cons, List.find?_cons, ih (fun u hu => hl u (by simp [hu]))]
      have : ((fun m : Nat × Option Value => decide (m.2 = some (.str s))) ∘ fun u => (u, w'.prop u id)) u =
          (valueOf (w'.events u) id == some (.str s)) := by
        simp only [Function.comp_def]
        rw [h u (hl u (by simp)), Bool.eq_iff_iff]
        simp
      rw [this]
  rw [this _ fun u hu => hu]
  cases us.find? _ <;> rfl

/-- C57. `arrangements[name]` is the first arrangement of the iteration with this name. -/
theorem C57_name {w : World} {L : Nat → Prop} (r : WReach w L) {t : Nat} (ht : L t)
    (hne : shown w.heap 0 ≠ []) {w' : World} {us : List Nat} (h : w.iterArrangements t = (w', .ok us)) (s : PStr) :
    w.getArrangement t (.str s) = (w', match us.find? fun u => valueOf (w'.events u) 241 == some (.str s) with
      | some u => .ok u
      | none => .error .modelNotFound) := by
  have hw : WReach w' (fun u => L u ∨ u ∈ us) := by
    unfold World.iterArrangements at h
    split at h
    · cases h
    · next n _ =>
      cases h
      exact (subViews_spec r ht hne arrangementStep false (n : Int)).1
  unfold World.getArrangement
  rw [h]
  dsimp only
  congr 1
  exact find_named s (fun u hu => prop_spec hw (.inr hu) 241) 0

/-- C57. `arrangements.current` is `None` without a stored position, else the arrangement at this position of the
iteration; `ModelNotFound` is raised if there are not so many, and the iteration's own exception if it raises. -/
theorem C57_current {w : World} {L : Nat → Prop} (r : WReach w L) {t : Nat} (ht : L t) :
    ((∀ e ∈ w.events t, e.id ≠ 100) → (w.currentArrangement t).2 = .ok none) ∧
    ∀ n : Nat, valueOf (w.events t) 100 = some (.lv (.int n)) → (w.currentArrangement t).2 =
      match (w.iterArrangements t).2 with
      | .error e => .error e
      | .ok us => match us[n]? with
        | some u => .ok (some u)
        | none => .error .modelNotFound := by
  unfold World.currentArrangement
  rw [World.contains_eq r ht]
  rcases World.first_value r ht 100 with ⟨ref, f1, f2, f3, f4⟩ | ⟨_, f2⟩
  · rw [f1, f3]
    refine ⟨fun h => ?_, fun n hn => ?_⟩
    · exfalso
      unfold valueOf at f3
      cases hf : (w.events t).find? (fun e => e.id == 100) with
      | none => rw [hf] at f3; cases f3
      | some x => exact h x (List.mem_of_find?_eq_some hf) (by simpa using List.find?_some hf)
    · rw [if_pos (by rfl)]
      dsimp only
      rcases w.iterArrangements t with ⟨w1, e | us⟩
      · rfl
      · dsimp only
        rw [Option.some.inj hn]
        dsimp only
        have : pyIndex us (n : Int) = us[n]? := by unfold pyIndex; simp
        rw [this]
        cases us[n]? <;> rfl
  · rw [f2]
    exact ⟨fun _ => rfl, fun n hn => (nomatch hn)⟩

open Demo in
example : valueOf (albumWorld.1.events albumWorld.2) 100 = some (.lv (.int (1 : Nat))) ∧
    (albumWorld.1.currentArrangement albumWorld.2).2 = .ok (some 3) := by
  refine ⟨by decide +kernel, by decide +kernel⟩

/-- C57, positions that no file has but an assignment to the event can store: `-1` is the last arrangement, `-2` the one before
it, and so on; `ModelNotFound` is raised if there are not so many. -/
theorem C57_negative {w : World} {L : Nat → Prop} (r : WReach w L) {t : Nat} (ht : L t) {k : Nat} (hk : 1 ≤ k)
    (hv : valueOf (w.events t) 100 = some (.lv (.int (-(k : Int))))) : (w.currentArrangement t).2 =
      match (w.iterArrangements t).2 with
      | .error e => .error e
      | .ok us => match us.reverse[k - 1]? with
        | some u => .ok (some u)
        | none => .error .modelNotFound := by
  unfold World.currentArrangement
  rw [World.contains_eq r ht]
  rcases World.first_value r ht 100 with ⟨ref, f1, f2, f3, f4⟩ | ⟨_, f2⟩
  · rw [f1, f3, if_pos (by rfl)]
    dsimp only
    rw [f3] at hv
    rcases w.iterArrangements t with ⟨w1, e | us⟩
    · rfl
    · dsimp only
      rw [Option.some.inj hv]
      dsimp only
      have : pyIndex us (-(k : Int)) = us.reverse[k - 1]? := by
        unfold pyIndex
        rw [if_neg (by omega)]
        split
        · rw [List.getElem?_reverse (by omega)]
          congr 1
          omega
        · rw [List.getElem?_eq_none (by simp; omega)]
      rw [this]
      cases us.reverse[k - 1]? <;> rfl
  · rw [f2] at hv; cases hv

open Demo in
/-- The hypotheses can be met: `-2` assigned to the stored position of the album. -/
example : ∃ ref, WReach (albumWorld.1.setEv ref { albumWorld.1.ev ref with value := .lv (.int (-((2 : Nat) : Int))) })
      (fun u => u = 0 ∨ u = albumWorld.2) ∧
    valueOf ((albumWorld.1.setEv ref { albumWorld.1.ev ref with value := .lv (.int (-((2 : Nat) : Int))) }).events albumWorld.2) 100 =
      some (.lv (.int (-((2 : Nat) : Int)))) ∧
    ((albumWorld.1.setEv ref { albumWorld.1.ev ref with value := .lv (.int (-((2 : Nat) : Int))) }).currentArrangement
      albumWorld.2).2 = .ok (some 2) :=
  ⟨11, album_reach.assign _ _, by decide +kernel, by decide +kernel⟩

/-- C57 where the events come in blocks: `current` is the arrangement whose position is stored
in the `Current` event; `ModelNotFound` is raised if there are not so many. -/
theorem C57_current_partial {w : World} {L : Nat → Prop} (r : WReach w L) {t : Nat} (ht : L t)
    (hne : shown w.heap 0 ≠ []) {pre : List Entry} {blocks : List (List Entry)} {cur : Entry} {rest : List Entry}
    (h : ArrangementBlocks (w.entries t) pre blocks cur rest) {n : Nat} (hv : cur.2.value = .lv (.int n)) :
    match ((joinFirst pre blocks).map fun b => b.filter isArrangementEvent)[n]? with
    | some b => ∃ u, (w.currentArrangement t).2 = .ok (some u) ∧ (w.currentArrangement t).1.entries u = b
    | none => (w.currentArrangement t).2 = .error .modelNotFound := by
  obtain ⟨w', us, h1, h2, h3, h4, h5⟩ := C56_arrangements_partial r ht hne h
  have hcont : w.contains t 100 = true := by
    rw [contains_entries r ht]
    exact ⟨cur, by rw [h.split]; simp, h.current⟩
  have hpre : ∀ e ∈ pre ++ blocks.flatten, e.2.id ≠ 100 := by
    intro e he
    rcases List.mem_append.1 he with he | he
    · exact (h.before e he).2
    · obtain ⟨b, hb, he⟩ := List.mem_flatten.1 he
      obtain ⟨new, tl, rfl, hn, htl⟩ := h.block b hb
      rcases List.mem_cons.1 he with rfl | he
      · rw [hn]; decide
      · exact (htl e he).2
  have hfirst : ∃ ref, w.heap.first t 100 = .ok ref ∧ (w.ev ref).value = .lv (.int n) := by
    rcases World.first_value r ht 100 with ⟨ref, f1, f2, f3, f4⟩ | ⟨_, f2⟩
    · refine ⟨ref, f1, ?_⟩
      have : valueOf (w.events t) 100 = some cur.2.value := by
        unfold valueOf
        rw [← World.entries_events, h.split, List.map_append, List.find?_append]
        have hnone : ((pre ++ blocks.flatten).map Prod.snd).find? (fun e => e.id == 100) = none := by
          rw [List.find?_eq_none]
          intro e he
          obtain ⟨x, hx, rfl⟩ := List.mem_map.1 he
          simpa using hpre x hx
        rw [hnone, List.map_cons, List.find?_cons, h.current]
        rfl
      rw [this, hv] at f3
      exact (Option.some.inj f3).symm
    · rw [World.contains_eq r ht, f2] at hcont
      cases hcont
  obtain ⟨ref, f1, f2⟩ := hfirst
  have hcur : w.currentArrangement t = (w', match us[n]? with
      | some u => .ok (some u)
      | none => .error .modelNotFound) := by
    unfold World.currentArrangement
    rw [if_pos hcont, f1]
    dsimp only
    rw [h1]
    dsimp only
    rw [f2]
    dsimp only
    have : pyIndex us (n : Int) = us[n]? := by unfold pyIndex; simp
    rw [this]
    cases us[n]? <;> rfl
  rw [hcur]
  dsimp only
  rw [← h3, List.getElem?_map]
  cases hu : us[n]? with
  | none => rfl
  | some u => exact ⟨u, rfl, rfl⟩

open Demo in
example : (albumEntries.getD 9 default).2.value = .lv (.int (1 : Nat)) ∧
    (albumWorld.1.currentArrangement albumWorld.2).2 = .ok (some 3) ∧
    (albumWorld.1.getArrangement albumWorld.2 (.str (PStr.lit "B"))).2 = .ok 3 := by
  refine ⟨by decide +kernel, by decide +kernel, by decide +kernel⟩

/-! ### C58 -/

namespace Spec

/-- Track events. -/
def isTrackEvent (e : Entry) : Bool := decide (e.2.id ∈ [239, 238])

end Spec

/-- C58 where an arrangement has tracks: the tracks are the blocks that begin with the data
event of a track, with the events of tracks in them; their number is the number of data events.
Missing: arrangements without tracks, where one is made up. -/
theorem C58_tracks_partial {w : World} {L : Nat → Prop} (r : WReach w L) {u : Nat} (hu : L u)
    (hne : shown w.heap 0 ≠ []) {pre : List Entry} {blocks : List (List Entry)}
    (hl : w.entries u = pre ++ blocks.flatten) (hpre : ∀ e ∈ pre, isTrackEvent e = false)
    (hb : ∀ b ∈ blocks, ∃ x tl, b = x :: tl ∧ x.2.id = 238 ∧ ∀ e ∈ tl, e.2.id ≠ 238) (hs : blocks ≠ []) :
    let w' := (w.trackViews u).1
    let us := (w.trackViews u).2
    us.map w'.entries = blocks.map (fun b => b.filter isTrackEvent) ∧ WReach w' (fun v => L v ∨ v ∈ us) ∧
      w'.project = w.project := by
  obtain ⟨h1, h2, h3, _⟩ := divViews_spec r hu hne 238 [239, 238]
  refine ⟨?_, h1, h3⟩
  refine h2.trans ?_
  rw [hl, divBy_first (fun e : Entry => e.2.id) 238 [239, 238] pre blocks (by
    intro e he
    have := hpre e he
    unfold isTrackEvent at this
    intro c
    rw [c] at this
    simp at this) hb]
  cases blocks with
  | nil => exact absurd rfl hs
  | cons b bs =>
    dsimp only
    have : pre.filter (fun e => decide (e.2.id ∈ [239, 238])) = [] := by
      rw [List.filter_eq_nil_iff]
      intro e he
      have := hpre e he
      unfold isTrackEvent at this
      rw [this]
      simp
    rw [List.filter_append, this, List.nil_append]
    rfl

open Demo in
example : ∃ w' us, albumWorld.1.iterArrangements albumWorld.2 = (w', .ok us) ∧
    (us.map fun u => (w'.trackViews u).2.map fun v => ((w'.trackViews u).1.events v).map Event.id) =
      [[[238], [238, 239]], [[238]]] := by
  refine ⟨(albumWorld.1.iterArrangements albumWorld.2).1, [2, 3], ?_, by decide +kernel⟩
  have : (albumWorld.1.iterArrangements albumWorld.2).2 = .ok [2, 3] := by decide +kernel
  rw [← this]

/-- C58 is false without tracks: whenever there is no data event of a track, `tracks` yields one
track nevertheless, which has no data event. -/
theorem C58_tracks_refuted {w : World} {L : Nat → Prop} (r : WReach w L) {u : Nat} (hu : L u)
    (hne : shown w.heap 0 ≠ []) (h : ∀ e ∈ w.entries u, e.2.id ≠ 238) :
    ∃ v, (w.trackViews u).2 = [v] ∧ ∀ e ∈ (w.trackViews u).1.entries v, e.2.id ≠ 238 := by
  obtain ⟨_, h2, _⟩ := divViews_spec r hu hne 238 [239, 238]
  have e : w.entries u = w.entries u ++ ([] : List (List Entry)).flatten := by simp
  rw [e, divBy_first (fun e : Entry => e.2.id) 238 [239, 238] _ [] h (by simp)] at h2
  dsimp only at h2
  have hlen := congrArg List.length h2
  rw [List.length_map] at hlen
  change (w.trackViews u).2.length = 1 at hlen
  match hv : (w.trackViews u).2, hlen with
  | [v], _ =>
    refine ⟨v, rfl, ?_⟩
    change (w.trackViews u).2.map (w.trackViews u).1.entries = _ at h2
    rw [hv, List.map_cons, List.map_nil] at h2
    have := (List.cons.inj h2).1
    intro e he
    rw [this] at he
    exact h e (List.mem_filter.1 he).1

open Demo in
example : WReach lostWorld.1 (fun u => u = 0 ∨ u = lostWorld.2) ∧ (∀ e ∈ lostWorld.1.entries lostWorld.2, e.2.id ≠ 238) :=
  ⟨pickView_reach (.parsed lost) rfl (by decide +kernel) arrangementsStep false, by decide +kernel⟩

end PyFLP
