import Verif.Slices
import Verif.Props.Mixer
import Verif.Props.Arrangements
import Verif.Props.Rack
import Verif.Props.Automation
/-!
# C94: slices of collections, C95: slots by index and name
-/

namespace PyFLP
open Spec

namespace Spec

/-- The models `get a`, `get (a + 1)`, …, `get (b - 1)`, as far as they exist. -/
def each {α : Type} (get : Int → Py α) (a b : Int) : List α :=
  (List.range (b - a).toNat).filterMap fun k : Nat => (get (a + k)).toOption

end Spec

theorem sliceLoop_error {α : Type} (a b : Int) (e : Exc) (l : List α) (idx : Int) :
    sliceLoop (some a) (some b) (some e) l idx = .error e := by
  induction l generalizing idx with
  | nil => rfl
  | cons m l ih => unfold sliceLoop; dsimp only; rw [ih]

theorem sliceLoop_some {α : Type} (a b : Int) (l : List α) (idx : Int) :
    sliceLoop (some a) (some b) none l idx = .ok ((l.drop (a - idx).toNat).take ((b - idx).toNat - (a - idx).toNat)) := by
  induction l generalizing idx with
  | nil => simp [sliceLoop]
  | cons m l ih =>
    rw [sliceLoop, ih]
    dsimp only
    congr 1
    by_cases h1 : a ≤ idx
    · have e1 : (a - idx).toNat = 0 := by omega
      have e2 : (a - (idx + 1)).toNat = 0 := by omega
      rw [e1, e2]
      by_cases h2 : idx < b
      · have e3 : (b - idx).toNat = (b - (idx + 1)).toNat + 1 := by omega
        rw [if_pos ⟨h1, h2⟩, e3]
        simp
      · have e3 : (b - idx).toNat = 0 := by omega
        have e4 : (b - (idx + 1)).toNat = 0 := by omega
        rw [if_neg (by omega), e3, e4]
        simp
    · have e1 : (a - idx).toNat = (a - (idx + 1)).toNat + 1 := by omega
      rw [if_neg (by omega), e1, List.drop_succ_cons]
      congr 1
      omega

theorem each_eq {α : Type} {get : Int → Py α} {l : List α} {a b : Int} (ha : 0 ≤ a)
    (h : ∀ i, 0 ≤ i → (get i).toOption = l[i.toNat]?) :
    each get a b = (l.drop a.toNat).take (b.toNat - a.toNat) := by
  unfold each
  have e : (b - a).toNat = b.toNat - a.toNat := by omega
  rw [e]
  have : ∀ k : Nat, (get (a + (k : Int))).toOption = (l.drop a.toNat)[k]? := by
    intro k
    rw [h _ (by omega), List.getElem?_drop]
    congr 1
    omega
  simp only [this]
  generalize b.toNat - a.toNat = n
  generalize l.drop a.toNat = m
  induction n generalizing m with
  | zero => simp
  | succ n ih =>
    rw [List.range_succ_eq_map, List.filterMap_cons]
    cases m with
    | nil => simp
    | cons x m =>
      simp only [List.getElem?_cons_zero, List.filterMap_map, List.take_succ_cons, List.cons.injEq, true_and]
      rw [← ih m]
      congr 1

theorem slice_each {α : Type} {get : Int → Py α} {l : List α} {a b : Int} (ha : 0 ≤ a)
    (h : ∀ i, 0 ≤ i → (get i).toOption = l[i.toNat]?) : sliceLoop (some a) (some b) none l 0 = .ok (each get a b) := by
  rw [sliceLoop_some, each_eq ha h, Int.sub_zero, Int.sub_zero]

theorem getItem_each {α : Type} (l : List α) (f : α → Option Value) (i : Int) (hi : 0 ≤ i) :
    (getItem (.int i) (l.map fun u => (u, f u)) 0).toOption = l[i.toNat]? := by
  rw [getItem_int, if_pos hi, List.getElem?_map, Int.sub_zero]
  cases l[i.toNat]? <;> rfl

theorem find_zipIdx {α : Type} (l : List α) (k n : Nat) :
    (l.zipIdx k).find? (fun x => decide ((x.2 : Int) = ((k + n : Nat) : Int))) = l[n]?.map fun x => (x, k + n) := by
  induction l generalizing k n with
  | nil => simp
  | cons x l ih =>
    rw [List.zipIdx_cons, List.find?_cons]
    cases n with
    | zero => simp
    | succ n =>
      rw [decide_eq_false (by dsimp only; omega), show k + (n + 1) = k + 1 + n by omega, ih (k + 1) n]
      simp

/-- C94 for arrangements: `arrangements[a:b]` has the arrangements `arrangements[a]`, …, `arrangements[b - 1]`, if `a` is not
negative. -/
theorem C94_arrangements_partial (w : World) (t : Nat) {a : Int} (ha : 0 ≤ a) (b : Int) :
    (∀ e, (w.iterArrangements t).2 = .error e → (w.sliceArrangements t (some a) (some b)).2 = .error e) ∧
    (∀ us, (w.iterArrangements t).2 = .ok us →
      (w.sliceArrangements t (some a) (some b)).2 = .ok (each (fun i => (w.getArrangement t (.int i)).2) a b)) := by
  unfold World.sliceArrangements World.getArrangement
  rcases w.iterArrangements t with ⟨w1, e | us⟩
  · exact ⟨fun e' h => (by cases h; rfl), fun us h => (nomatch h)⟩
  · refine ⟨fun e' h => (nomatch h), fun us' h => ?_⟩
    dsimp only
    exact slice_each ha fun i hi => getItem_each us _ i hi

/-- C94 for the slots of an insert. -/
theorem C94_slots_partial (w : World) (u : Nat) {a : Int} (ha : 0 ≤ a) (b : Int) :
    (w.sliceSlots u true (some a) (some b)).2 = .ok (each (fun i => (w.getSlot u true (.int i)).2) a b) := by
  unfold World.sliceSlots World.getSlot World.iterSlots
  dsimp only
  exact slice_each ha fun i hi => getItem_each _ _ i hi

/-- C94 for the points of an automation clip. -/
theorem C94_points_partial (w : World) (u : Nat) {a : Int} (ha : 0 ≤ a) (b : Int) :
    (∀ e, w.points u = .error e → w.slicePoints u (some a) (some b) = .error e) ∧
    (∀ ps, w.points u = .ok ps → w.slicePoints u (some a) (some b) = .ok (each (fun i => w.getPoint u i) a b)) := by
  unfold World.slicePoints World.getPoint
  rcases w.points u with e | ps
  · exact ⟨fun e' h => (by cases h; rfl), fun us h => (nomatch h)⟩
  · refine ⟨fun e' h => (nomatch h), fun us' h => ?_⟩
    dsimp only
    refine slice_each ha fun i hi => ?_
    obtain ⟨n, rfl⟩ := Int.eq_ofNat_of_zero_le hi
    have h : ps.zipIdx.find? (fun x => decide ((x.2 : Int) = (n : Int))) = ps[n]?.map fun x => (x, n) := by
      have := find_zipIdx ps 0 n
      simpa using this
    rw [h]
    cases hn : ps[n]? <;> simp [hn, Except.toOption]

/-- C94 is false of the mixer: `mixer[a:b]` has the inserts `mixer[a - 1]`, …, `mixer[b - 2]`. -/
theorem C94_mixer_refuted (w : World) (t : Nat) (v : FLVersion) {a : Int} (ha : 0 ≤ a) (b : Int) :
    (w.sliceInserts t v (some a) (some b)).2 = .ok (each (fun i => (w.getInsert t v (.int i)).2) (a - 1) (b - 1)) := by
  have h := slice_each (get := fun i => (w.getInsert t v (.int (i - 1))).2) (l := (w.iterInserts t v).2) ha (b := b) fun i hi => by
    rw [C60_index]
    show (if i - 1 < -1 then Except.error Exc.modelNotFound else _).toOption = _
    rw [if_neg (by omega), show i - 1 + 1 = i by omega]
    cases (w.iterInserts t v).2[i.toNat]? <;> rfl
  refine Eq.trans h ?_
  unfold each
  rw [show (b - 1 - (a - 1)) = b - a by omega]
  congr 1
  congr 1
  funext k
  dsimp only
  rw [show a + (k : Int) - 1 = a - 1 + k by omega]

/-- C94 is false of the rack and of layers: their slices are those of the positions, whereas `channels[i]` and `layer[i]`
are found by `iid`. -/
theorem C94_channels_refuted (w : World) (t : Nat) {a b : Int} :
    (∀ w' cs, w.iterRack t = (w', cs, none) → w.sliceChannels t (some a) (some b) =
      (w', .ok ((cs.drop a.toNat).take (b.toNat - a.toNat)))) ∧
    ∃ (w : World) (t : Nat) (c : Chan), (w.sliceChannels t (some 0) (some 1)).2 = .ok [c] ∧ c.iid = .lv (.int 7) ∧
      (w.getChannel t (.int 0)).2 = .error .channelNotFound := by
  constructor
  · intro w' cs h
    unfold World.sliceChannels
    rw [h]
    dsimp only
    rw [sliceLoop_some, Int.sub_zero, Int.sub_zero]
  · exact ⟨World.ofProject ⟨0, 1, 96, [⟨199, .ascii, .str (PStr.lit "20.8.3"), 7⟩, ⟨231, .unicode, .str (PStr.lit "All"), 8⟩,
      ⟨64, .u16, .lv (.int 7), 2⟩, ⟨21, .u8, .lv (.int 0), 1⟩, ⟨145, .i32, .lv (.int 0), 4⟩]⟩, 0,
      ⟨2, .sampler, 1, .lv (.int 7)⟩, by decide +kernel, rfl, by decide +kernel⟩

/-- C94 is false of layers in the same way. -/
theorem C94_children_refuted (w : World) (cs : List Chan) (u : Nat) {a b : Int} :
    (∀ l, w.iterLayer cs u = (l, none) → w.sliceChildren cs u (some a) (some b) =
      .ok ((l.drop a.toNat).take (b.toNat - a.toNat))) ∧
    (∀ l e, w.iterLayer cs u = (l, some e) → w.sliceChildren cs u (some a) (some b) = .error e) ∧
    let r := (Demo.rackOf Demo.band).1.iterRack (Demo.rackOf Demo.band).2
    r.1.sliceChildren r.2.1 4 (some 1) (some 2) = .ok [⟨5, .instrument, 2, .lv (.int 2)⟩] ∧
      r.1.getChild r.2.1 4 1 = .error .channelNotFound := by
  refine ⟨fun l h => ?_, fun l e h => ?_, ?_⟩
  · unfold World.sliceChildren
    rw [h]
    dsimp only
    rw [sliceLoop_some, Int.sub_zero, Int.sub_zero]
  · unfold World.sliceChildren
    rw [h]
    exact sliceLoop_error ..
  · exact ⟨by decide +kernel, by decide +kernel⟩

/-- C94 is false of slices with an open end: they raise as soon as there is a model. -/
theorem C94_open_refuted {α : Type} (stop : Option Int) (e : Option Exc) (m : α) (l : List α) (idx : Int) :
    sliceLoop none stop e (m :: l) idx = .error .typeError ∧ sliceLoop stop none e (m :: l) idx = .error .typeError := by
  constructor
  · rfl
  · cases stop <;> rfl

/-! ## C95: slots -/

/-- C95: `insert[i]` for a number is the slot at this position of the iteration, `ModelNotFound` without one. -/
theorem C95_index (w : World) (u : Nat) (i : Int) :
    w.getSlot u true (.int i) = ((w.slotViews u).1,
      if i < 0 then .error .modelNotFound
      else match (w.slotViews u).2[i.toNat]? with
        | some s => .ok s
        | none => .error .modelNotFound) := by
  unfold World.getSlot World.iterSlots
  dsimp only
  rw [if_pos rfl]
  dsimp only
  rw [getItem_int]
  by_cases h : i < 0
  · rw [if_neg (by omega), if_pos h]
  · rw [if_pos (by omega), if_neg h, List.getElem?_map, Int.sub_zero]
    cases (w.slotViews u).2[i.toNat]? <;> rfl

/-- C95: `insert[name]` is the first slot of the iteration whose name is this text. -/
theorem C95_name {w : World} {L : Nat → Prop} (r : WReach w L) {u : Nat} (hu : L u) (hne : shown w.heap 0 ≠ []) (s : PStr) :
    let w' := (w.slotViews u).1
    w.getSlot u true (.str s) =
      (w', match (w.slotViews u).2.find? fun v => valueOf (w'.events v) 203 == some (.str s) with
        | some v => .ok v
        | none => .error .modelNotFound) := by
  obtain ⟨h1, _⟩ := divViews_spec r hu hne 98 [98, 128, 155, 201, 203, 212, 213]
  unfold World.getSlot World.iterSlots
  dsimp only
  rw [if_pos rfl]
  dsimp only
  congr 1
  exact find_named s (fun u hu => prop_spec h1 (.inr hu) 203) 0

/-- C95 is false of inserts the mixer has no parameters for: every access raises `KeyError`. -/
theorem C95_params_refuted (w : World) (u : Nat) (i : Subscript) (a b : Option Int) :
    (w.iterSlots u false).2 = ([], some .keyError) ∧ (w.getSlot u false i).2 = .error .keyError ∧
      (w.sliceSlots u false a b).2 = .error .keyError := ⟨rfl, rfl, rfl⟩

open Demo in
/-- A case of the refutation for the mixer: `mixer[0:1]` has insert 2, whereas `mixer[0]` is insert 3. -/
example : (consoleWorld.1.sliceInserts consoleWorld.2 ⟨20, 8, 4, some 0⟩ (some 0) (some 1)).2 = .ok [2] ∧
    (consoleWorld.1.getInsert consoleWorld.2 ⟨20, 8, 4, some 0⟩ (.int 0)).2 = .ok 3 := by decide +kernel

open Demo in
/-- A case of the arrangements: the second one alone. -/
example : let w := World.ofProject ⟨0, 1, 96, [⟨199, .ascii, .str (PStr.lit "20.8.3"), 7⟩, ⟨99, .u16, .lv (.int 0), 2⟩,
      ⟨241, .unicode, .str (PStr.lit "A"), 4⟩, ⟨99, .u16, .lv (.int 1), 2⟩, ⟨241, .unicode, .str (PStr.lit "B"), 4⟩,
      ⟨99, .u16, .lv (.int 2), 2⟩]⟩
    (w.sliceArrangements 0 (some 1) (some 2)).2 = .ok [2] ∧ (w.getArrangement 0 (.int 1)).2 = .ok 2 := by decide +kernel

namespace Demo

/-- An insert with three slots, two of which have the same name. -/
def slotWorld : World := World.ofProject ⟨0, 1, 96, [⟨98, .u16, .lv (.int 0), 2⟩, ⟨98, .u16, .lv (.int 1), 2⟩,
  ⟨203, .unicode, .str (PStr.lit "X"), 4⟩, ⟨98, .u16, .lv (.int 2), 2⟩, ⟨203, .unicode, .str (PStr.lit "X"), 4⟩]⟩

end Demo

open Demo in
/-- A case of C94 and C95 for slots. -/
example : WReach slotWorld (· = 0) ∧ shown slotWorld.heap 0 ≠ [] ∧
    (slotWorld.slotViews 0).2 = [1, 2, 3] ∧ (slotWorld.getSlot 0 true (.int 2)).2 = .ok 3 ∧
    (slotWorld.getSlot 0 true (.int (-1))).2 = .error .modelNotFound ∧
    (slotWorld.getSlot 0 true (.str (PStr.lit "X"))).2 = .ok 2 ∧
    (slotWorld.getSlot 0 true (.str (PStr.lit "Y"))).2 = .error .modelNotFound ∧
    (slotWorld.sliceSlots 0 true (some 1) (some 3)).2 = .ok [2, 3] :=
  ⟨.parsed _, by decide +kernel, by decide +kernel, by decide +kernel, by decide +kernel, by decide +kernel, by decide +kernel,
    by decide +kernel⟩

end PyFLP
