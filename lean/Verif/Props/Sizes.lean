import Verif.SortedTrees
import Verif.Props.Inserts
import Verif.World
/-!
# Projects of any size (C139)

The library keeps the events of a project and of every view in chunks of at most 2000 events, which are split and merged as events
come and go, and searches them by bisection.  Nothing of this can be seen: whatever the number of events, the lists behave as plain
lists.
-/

namespace PyFLP

open Spec

namespace Spec

/-- As `History`, for trees with chunked lists: a program that parses a project, creates views of views, and inserts and removes
events through views that are up to date. -/
inductive LargeHistory : SHeap → (live : Nat → Prop) → (own : Nat → Nat → Prop) → Prop
  | parsed (evs : List Ev) (distinct : (evs.map Prod.fst).Nodup) :
      LargeHistory (SHeap.ofEvents evs) (· = 0) (fun _ _ => False)
  | view {s live own t} (r : LargeHistory s live own) (ht : live t) (hne : shown s.flat 0 ≠ []) (call : ViewCall) :
      LargeHistory (s.view t call).1 (fun u => live u ∨ u ∈ (s.view t call).2)
        (fun u y => if u ∈ (s.view t call).2 then own t y else own u y)
  | pop {s live own t id n s' x} (r : LargeHistory s live own) (ht : live t) (hp : s.pop t id n = (s', .ok x)) :
      LargeHistory s' (fun u => live u ∧ ∀ w ∈ u :: s.flat.ancestors u,
        (w ∈ t :: s.flat.ancestors t ∨ x ∉ evNames s.flat w) ∧
          ∀ y ∈ evNames s.flat w, own w y →
            ∃ i j : Nat, i ≤ j ∧ (evNames s.flat 0)[i]? = some y ∧ (evNames s.flat 0)[j]? = some x) own
  | insert {s live own t pos ref id s' k} (r : LargeHistory s live own) (ht : live t) (new : ref ∉ evNames s.flat 0)
      (hi : s.insert t pos ref id = (s', .ok ())) (place : TargetAt s.flat t pos k) :
      LargeHistory s' (fun u => live u ∧ ∀ w ∈ u :: s.flat.ancestors u,
        ∀ y ∈ evNames s.flat w, own w y → ∃ i : Nat, i < k ∧ (evNames s.flat 0)[i]? = some y)
        (fun u y => own u y ∨ (u ∈ t :: s.flat.ancestors t ∧ u ≠ 0 ∧ y = ref))

/-- An operation on the event list of a project. -/
def largeStep (s : SHeap) : RootOp → SHeap × Py (Option Nat)
  | .insert pos e => let r := s.insert 0 pos e.1 e.2; (r.1, r.2.map fun _ => none)
  | .pop id n => let r := s.pop 0 id n; (r.1, r.2.map some)
  | .remove id n => let r := s.remove 0 id n; (r.1, r.2.map fun _ => none)

end Spec

/-- Programs on chunked lists go through the same states as programs on plain lists. -/
theorem large_history {s : SHeap} {live : Nat → Prop} {own : Nat → Nat → Prop} (r : LargeHistory s live own) :
    s.Inv ∧ History s.flat live own := by
  induction r with
  | parsed evs distinct =>
    obtain ⟨h1, h2⟩ := SHeap.ofEvents_flat evs
    exact ⟨h1, h2 ▸ History.parsed evs distinct⟩
  | @view s live own t r ht hne call ih =>
    obtain ⟨i1, i2⟩ := ih
    obtain ⟨v1, v2, v3⟩ := SHeap.view_flat i1 t call
    refine ⟨v1, ?_⟩
    rw [v2, v3]
    exact History.view i2 ht hne call
  | @pop s live own t id n s' x r ht hp ih =>
    obtain ⟨i1, i2⟩ := ih
    obtain ⟨g, _⟩ := history_fair i2
    obtain ⟨p1, p2, p3⟩ := SHeap.pop_flat i1 g ht id n
    rw [hp] at p1 p2 p3
    exact ⟨p1, History.pop i2 ht (Prod.ext p2.symm p3.symm)⟩
  | @insert s live own t pos ref id s' k r ht new hi place ih =>
    obtain ⟨i1, i2⟩ := ih
    obtain ⟨g, _⟩ := history_fair i2
    obtain ⟨p1, p2, p3⟩ := SHeap.insert_flat i1 g ht pos ref id
    rw [hi] at p1 p2 p3
    exact ⟨p1, History.insert i2 ht new (Prod.ext p2.symm p3.symm) place⟩

/-- C139. In every history, through every view that is up to date, creating views, removing and inserting events has the same
results and exceptions and leaves the same events in all trees as if every list were a plain one. -/
theorem C139_same {s : SHeap} {live : Nat → Prop} {own : Nat → Nat → Prop} (r : LargeHistory s live own) {t : Nat} (ht : live t) :
    History s.flat live own ∧
    (∀ call, (s.view t call).1.flat = (view s.flat t call).1 ∧ (s.view t call).2 = (view s.flat t call).2) ∧
    (∀ id n, (s.pop t id n).1.flat = (s.flat.pop t id n).1 ∧ (s.pop t id n).2 = (s.flat.pop t id n).2) ∧
    (∀ id n, (s.remove t id n).1.flat = (s.flat.remove t id n).1 ∧ (s.remove t id n).2 = (s.flat.remove t id n).2) ∧
    ∀ pos ref id, (s.insert t pos ref id).1.flat = (s.flat.insert t pos ref id).1 ∧
      (s.insert t pos ref id).2 = (s.flat.insert t pos ref id).2 := by
  obtain ⟨i1, i2⟩ := large_history r
  obtain ⟨g, _⟩ := history_fair i2
  exact ⟨i2, fun call => (SHeap.view_flat i1 t call).2, fun id n => (SHeap.pop_flat i1 g ht id n).2,
    fun id n => (SHeap.remove_flat i1 g ht id n).2, fun pos ref id => (SHeap.insert_flat i1 g ht pos ref id).2⟩

/-- C139. Any sequence of `insert`, `pop` and `remove` on the event list of a project with any number of events gives the same
results, exceptions and events as on a plain list. -/
theorem C139_project (evs : List Ev) (distinct : (evs.map Prod.fst).Nodup) (ops : List RootOp) :
    shown (runOps largeStep (SHeap.ofEvents evs) ops).1.flat 0 = (runOps plainStep evs ops).1 ∧
    (runOps largeStep (SHeap.ofEvents evs) ops).2 = (runOps plainStep evs ops).2 := by
  have key : ∀ (ops : List RootOp) (s : SHeap), s.Inv → (∃ V, Heap.Good s.flat 0 V) →
      shown (runOps largeStep s ops).1.flat 0 = (runOps plainStep (shown s.flat 0) ops).1 ∧
      (runOps largeStep s ops).2 = (runOps plainStep (shown s.flat 0) ops).2 := by
    intro ops
    induction ops with
    | nil => intro s _ _; exact ⟨rfl, rfl⟩
    | cons op ops ih =>
      intro s hs ⟨V, g⟩
      obtain ⟨s1, s2, s3⟩ := treeStep_plain g op
      have hstep : (largeStep s op).1.Inv ∧ (largeStep s op).1.flat = (treeStep s.flat op).1 ∧
          (largeStep s op).2 = (treeStep s.flat op).2 := by
        cases op with
        | insert pos e =>
          obtain ⟨p1, p2, p3⟩ := SHeap.insert_flat hs g.fair g.vρ pos e.1 e.2
          exact ⟨p1, p2, by simp only [largeStep, treeStep]; rw [p3]⟩
        | pop id n =>
          obtain ⟨p1, p2, p3⟩ := SHeap.pop_flat hs g.fair g.vρ id n
          exact ⟨p1, p2, by simp only [largeStep, treeStep]; rw [p3]⟩
        | remove id n =>
          obtain ⟨p1, p2, p3⟩ := SHeap.remove_flat hs g.fair g.vρ id n
          exact ⟨p1, p2, by simp only [largeStep, treeStep]; rw [p3]⟩
      obtain ⟨t1, t2, t3⟩ := hstep
      obtain ⟨i1, i2⟩ := ih (largeStep s op).1 t1 (by rw [t2]; exact s3)
      simp only [runOps]
      rw [t2, s1] at i1 i2
      exact ⟨i1, by rw [i2, t3, s2]⟩
  obtain ⟨e1, e2⟩ := SHeap.ofEvents_flat evs
  obtain ⟨g, _⟩ := reach_good (Reach.parsed evs distinct)
  have h0 : shown (SHeap.ofEvents evs).flat 0 = evs := by rw [e2]; exact shown_ofEvents evs
  have := key ops (SHeap.ofEvents evs) e1 ⟨_, e2 ▸ g⟩
  rwa [h0] at this

/-- C139. `pop` and `remove` through a view of a project of any size: the `n`-th event with this id of the view disappears from
the view and all trees above it, and nothing else changes; a missing id is a `KeyError`, a wrong number an `IndexError`. -/
theorem C139_pop {s : SHeap} {live : Nat → Prop} {own : Nat → Nat → Prop} (r : LargeHistory s live own) {t : Nat}
    (ht : live t) (id : Nat) (n : Int) :
    match plainPop (shown s.flat t) id n with
    | .error x => (s.pop t id n).1.flat = s.flat ∧ (s.pop t id n).2 = .error x ∧ (s.remove t id n).2 = .error x
    | .ok (e, l') => (s.pop t id n).2 = .ok e.1 ∧ (s.remove t id n).2 = .ok () ∧ e ∈ shown s.flat t ∧
        shown (s.pop t id n).1.flat t = l' ∧
        (∀ u ∈ t :: s.flat.ancestors t,
          shown (s.pop t id n).1.flat u = (shown s.flat u).filter fun x => x.1 ≠ e.1) ∧
        ∀ u ∉ t :: s.flat.ancestors t, shown (s.pop t id n).1.flat u = shown s.flat u := by
  obtain ⟨h1, _, h3, h4, _⟩ := C139_same r ht
  have hh := C21_history h1 ht id n
  obtain ⟨a1, a2⟩ := h3 id n
  obtain ⟨b1, b2⟩ := h4 id n
  cases hp : plainPop (shown s.flat t) id n with
  | error x =>
    rw [hp] at hh
    dsimp only at hh ⊢
    rw [a1, a2, b2, hh.1, hh.2]
    exact ⟨rfl, rfl, rfl⟩
  | ok res =>
    obtain ⟨e, l'⟩ := res
    rw [hp] at hh
    obtain ⟨h', e1, e2, _, e4, e5, e6, e7, _⟩ := hh
    dsimp only
    rw [a1, a2, b2, e1, e2]
    exact ⟨rfl, rfl, e4, e5, fun u hu => (e6 u hu).2, e7⟩

/-- C139. `insert` through a view of a project of any size that has had no insertions before: the event comes immediately before
the one that was at the given position, in the view and in all trees above it. -/
theorem C139_insert {s : SHeap} {live : Nat → Prop} {own : Nat → Nat → Prop} (r : LargeHistory s live own) {t : Nat}
    (ht : live t) (pos : Int) (e : Ev) {k : Nat} {f : Ev} (hk : position (shown s.flat t).length pos = some k)
    (hf : (shown s.flat t)[k]? = some f) (fresh : ∀ u ∈ t :: s.flat.ancestors t, ¬ own u f.1) :
    (s.insert t pos e.1 e.2).2 = .ok () ∧
    (∀ u ∈ t :: s.flat.ancestors t, ∃ i, (shown s.flat u)[i]? = some f ∧
      shown (s.insert t pos e.1 e.2).1.flat u = (shown s.flat u).take i ++ e :: (shown s.flat u).drop i) ∧
    ∀ u, live u → u ∉ t :: s.flat.ancestors t → shown (s.insert t pos e.1 e.2).1.flat u = shown s.flat u := by
  obtain ⟨h1, _, _, _, h5⟩ := C139_same r ht
  obtain ⟨a1, a2⟩ := h5 pos e.1 e.2
  obtain ⟨h', e1, e2, e3, _⟩ := (C24_exact h1 ht pos e).2.1 k f hk hf
  rw [a1, a2, e1]
  refine ⟨rfl, fun u hu => ?_, e3⟩
  obtain ⟨i, i1, i2, _⟩ := e2 u hu
  exact ⟨i, i1, i2 (fresh u hu)⟩

/-- Projects with more than a thousand events have their events in several chunks. -/
theorem several_chunks (evs : List Ev) (h : 1000 < evs.length) : 2 ≤ ((SHeap.ofEvents evs).slst 0).lists.length := by
  have hl : ∀ l : List Nat, 1000 < l.length → 2 ≤ (chunksOf l).length := by
    intro l hlen
    have h1 : l ≠ [] := fun e => by rw [e] at hlen; simp at hlen
    have h2 : l.drop loadFactor ≠ [] := fun e => by
      have := congrArg List.length e
      rw [List.length_drop, List.length_nil] at this
      unfold loadFactor at this
      omega
    rw [chunksOf, if_neg h1, chunksOf, if_neg h2]
    simp
  show 2 ≤ (chunksOf (Heap.sortCells _ _)).length
  apply hl
  unfold Heap.sortCells
  rw [(sortBy_perm _ _).length_eq]
  simpa using h

/-- A project of 5000 events. -/
def hugeEvents : List Ev := (List.range 5000).map fun i => (i, 64)

example : LargeHistory (SHeap.ofEvents hugeEvents) (· = 0) (fun _ _ => False) ∧
    2 ≤ ((SHeap.ofEvents hugeEvents).slst 0).lists.length :=
  ⟨.parsed _ (by
    have : hugeEvents.map Prod.fst = List.range 5000 := by
      unfold hugeEvents
      rw [List.map_map]
      exact List.map_id _
    rw [this]
    exact List.nodup_range), several_chunks _ (by unfold hugeEvents; rw [List.length_map, List.length_range]; omega)⟩

end PyFLP
