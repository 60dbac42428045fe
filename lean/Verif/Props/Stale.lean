import Verif.Stale
/-!
# Views that are not up to date (C143)

Views can get out of date: events are removed through one of two overlapping views, or inserted through a view of a view.  Using
such views can hit other events than meant (C23), but the damage is bounded: the project never loses more events than were popped,
never gets events nobody inserted, and never reorders its events.  The lists are the chunked ones of the library, searched by
bisection even where they are no longer sorted.
-/

namespace PyFLP

open Spec

namespace Spec

/-- One use of a tree: the project itself (number 0) or any view made before, up to date or not. -/
inductive Use : Type 1
  | view (t : Nat) (call : ViewCall)
  | insert (t : Nat) (pos : Int) (e : Ev)
  | append (t : Nat) (e : Ev)
  | pop (t id : Nat) (n : Int)
  | remove (t id : Nat) (n : Int)

/-- The tree that is used. -/
def Use.tree : Use → Nat
  | .view t _ => t
  | .insert t _ _ => t
  | .append t _ => t
  | .pop t _ _ => t
  | .remove t _ _ => t

/-- The event that is put into the tree. -/
def Use.brings : Use → List Ev
  | .insert _ _ e => [e]
  | .append _ e => [e]
  | _ => []

/-- The number of events that are taken out of the tree. -/
def Use.takes : Use → Nat
  | .pop _ _ _ => 1
  | .remove _ _ _ => 1
  | _ => 0

/-- What the use does, and whether it raises. -/
def Use.perform (s : SHeap) : Use → SHeap × Py Unit
  | .view t call => ((s.view t call).1, .ok ())
  | .insert t pos e => s.insert t pos e.1 e.2
  | .append t e => s.insert t (s.flat.lst t).length e.1 e.2
  | .pop t id n => let r := s.pop t id n; (r.1, r.2.map fun _ => ())
  | .remove t id n => s.remove t id n

/-- Programs that use trees in any way: the uses that did not raise, and the state they end in.  A use of a tree that does not exist
(yet) is skipped. -/
def useAll (s : SHeap) : List Use → List Use × SHeap
  | [] => ([], s)
  | u :: us =>
    if u.tree < s.trees.length then
      match u.perform s with
      | (s', .ok ()) => let r := useAll s' us; (u :: r.1, r.2)
      | (s', .error _) => useAll s' us
    else useAll s us

end Spec

/-- One use. -/
theorem use_any {s : SHeap} (up : s.Upright) (u : Use) (ht : u.tree < s.trees.length) :
    (u.perform s).1.Upright ∧
    match (u.perform s).2 with
    | .ok _ => (∃ x y, shown s.flat 0 = x ++ y ∧ u.takes = 0 ∧ shown (u.perform s).1.flat 0 = x ++ u.brings ++ y) ∨
        (∃ x e y, shown s.flat 0 = x ++ e :: y ∧ u.takes = 1 ∧ u.brings = [] ∧ shown (u.perform s).1.flat 0 = x ++ y)
    | .error _ => shown (u.perform s).1.flat 0 = shown s.flat 0 := by
  have ins : ∀ (t : Nat), t < s.trees.length → ∀ (pos : Int) (e : Ev), (s.insert t pos e.1 e.2).1.Upright ∧
      match (s.insert t pos e.1 e.2).2 with
      | .ok _ => ∃ x y, shown s.flat 0 = x ++ y ∧ shown (s.insert t pos e.1 e.2).1.flat 0 = x ++ e :: y
      | .error _ => shown (s.insert t pos e.1 e.2).1.flat 0 = shown s.flat 0 := by
    intro t ht pos e
    have h := up.insert_any ht pos e.1 e.2
    refine ⟨h.1, ?_⟩
    have h2 := h.2
    split <;> rename_i hx <;> rw [hx] at h2
    · exact h2
    · dsimp only at h2; rw [h2]
  cases u with
  | view t call =>
    obtain ⟨h1, h2⟩ := up.view (t := t) ht call
    exact ⟨h1, .inl ⟨shown s.flat 0, [], by simp, rfl, by simpa [Use.brings, Use.perform] using h2⟩⟩
  | insert t pos e =>
    obtain ⟨h1, h2⟩ := ins t ht pos e
    refine ⟨h1, ?_⟩
    unfold Use.perform
    split <;> rename_i hx <;> rw [hx] at h2
    · obtain ⟨x, y, e1, e2⟩ := h2
      exact .inl ⟨x, y, e1, rfl, by simpa [Use.brings] using e2⟩
    · exact h2
  | append t e =>
    obtain ⟨h1, h2⟩ := ins t ht (s.flat.lst t).length e
    refine ⟨h1, ?_⟩
    unfold Use.perform
    split <;> rename_i hx <;> rw [hx] at h2
    · obtain ⟨x, y, e1, e2⟩ := h2
      exact .inl ⟨x, y, e1, rfl, by simpa [Use.brings] using e2⟩
    · exact h2
  | pop t id n =>
    obtain ⟨h1, h2⟩ := up.pop_any (t := t) ht id n
    refine ⟨h1, ?_⟩
    unfold Use.perform
    dsimp only
    cases hx : (s.pop t id n).2 with
    | error x => rw [hx] at h2; exact h2
    | ok v =>
      rw [hx] at h2
      obtain ⟨x, e, y, e1, e2⟩ := h2
      exact .inr ⟨x, e, y, e1, rfl, rfl, e2⟩
  | remove t id n =>
    obtain ⟨h1, h2⟩ := up.pop_any (t := t) ht id n
    have hp : (Use.remove t id n).perform s = s.remove t id n := rfl
    rw [hp]
    unfold SHeap.remove
    rcases hx : s.pop t id n with ⟨s', x | v⟩
    · rw [hx] at h1 h2
      exact ⟨h1, h2⟩
    · rw [hx] at h1 h2
      obtain ⟨x, e, y, e1, e2⟩ := h2
      exact ⟨h1, .inr ⟨x, e, y, e1, rfl, rfl, e2⟩⟩

theorem useAll_any (us : List Use) : ∀ {s : SHeap}, s.Upright →
    (useAll s us).2.Upright ∧
    (∃ gone : List Ev, gone.length = ((useAll s us).1.map Use.takes).sum ∧
      (shown s.flat 0 ++ (useAll s us).1.flatMap Use.brings).Perm (shown (useAll s us).2.flat 0 ++ gone)) ∧
    ∀ p : Ev → Bool, (∀ e ∈ (useAll s us).1.flatMap Use.brings, p e = false) →
      ((shown (useAll s us).2.flat 0).filter p).Sublist ((shown s.flat 0).filter p) := by
  induction us with
  | nil => intro s up; exact ⟨up, ⟨[], rfl, by simp [useAll]⟩, fun p _ => List.Sublist.refl _⟩
  | cons u us ih =>
    intro s up
    rw [useAll]
    split
    · rename_i ht
      have hu := use_any up u ht
      rcases hx : u.perform s with ⟨s', x | v⟩
      · rw [hx] at hu
        obtain ⟨h1, h2⟩ := hu
        have := ih h1
        dsimp only at h2 ⊢
        rw [h2] at this
        exact this
      · rw [hx] at hu
        obtain ⟨h1, h2⟩ := hu
        obtain ⟨i1, ⟨gone, i2, i3⟩, i4⟩ := ih h1
        dsimp only at h2 ⊢
        refine ⟨i1, ?_, ?_⟩
        · rcases h2 with ⟨x, y, e1, e2, e3⟩ | ⟨x, e, y, e1, e2, e3, e4⟩
          · refine ⟨gone, by rw [i2, List.map_cons, List.sum_cons, e2, Nat.zero_add], ?_⟩
            refine List.Perm.trans ?_ i3
            rw [e1, e3, List.flatMap_cons]
            rw [← List.append_assoc]
            refine List.Perm.append_right _ ?_
            rw [List.append_assoc, List.append_assoc]
            exact List.Perm.append_left _ List.perm_append_comm
          · refine ⟨e :: gone, by rw [List.length_cons, i2, List.map_cons, List.sum_cons, e2]; exact Nat.add_comm _ _, ?_⟩
            rw [e1, List.flatMap_cons, e3, List.nil_append]
            rw [e4] at i3
            refine List.Perm.trans ?_ (List.perm_middle.symm)
            rw [List.append_assoc, List.cons_append]
            refine List.Perm.trans List.perm_middle ?_
            rw [← List.append_assoc]
            exact List.Perm.cons _ i3
        · intro p hp
          rw [List.flatMap_cons] at hp
          refine (i4 p fun e he => hp e (List.mem_append_right _ he)).trans ?_
          rcases h2 with ⟨x, y, e1, e2, e3⟩ | ⟨x, e, y, e1, e2, e3, e4⟩
          · have : u.brings.filter p = [] := List.filter_eq_nil_iff.2 fun e he => by simp [hp e (List.mem_append_left _ he)]
            rw [e1, e3, List.filter_append, List.filter_append, this, List.filter_append, List.append_nil]
            exact List.Sublist.refl _
          · rw [e1, e4, List.filter_append, List.filter_append]
            exact List.Sublist.append (List.Sublist.refl _) (List.Sublist.filter _ (List.sublist_cons_self _ _))
    · exact ih up

/-- **C143.**  A project with the events `evs` is used in any way, through views that may be out of date.  Then its events, together
with as many others as there were successful `pop` and `remove` calls, are the parsed events and those of successful `insert` and
`append` calls: nothing else is lost, doubled or made up. -/
theorem C143_conserved (evs : List Ev) (us : List Use) :
    ∃ gone : List Ev, gone.length = ((useAll (SHeap.ofEvents evs) us).1.map Use.takes).sum ∧
      (shown (useAll (SHeap.ofEvents evs) us).2.flat 0 ++ gone).Perm
        (evs ++ (useAll (SHeap.ofEvents evs) us).1.flatMap Use.brings) := by
  obtain ⟨up, e⟩ := SHeap.upright_ofEvents evs
  obtain ⟨_, ⟨gone, h1, h2⟩, _⟩ := useAll_any us up
  rw [e] at h2
  exact ⟨gone, h1, h2.symm⟩

/-- The number of events of the project is the number of parsed events plus successful insertions minus successful removals. -/
theorem C143_number (evs : List Ev) (us : List Use) :
    (shown (useAll (SHeap.ofEvents evs) us).2.flat 0).length + ((useAll (SHeap.ofEvents evs) us).1.map Use.takes).sum =
      evs.length + ((useAll (SHeap.ofEvents evs) us).1.flatMap Use.brings).length := by
  obtain ⟨gone, h1, h2⟩ := C143_conserved evs us
  have := h2.length_eq
  rw [List.length_append, List.length_append, h1] at this
  exact this

/-- The parsed events that are still in the project are in the order they were parsed in, if none of the inserted events is one of
them. -/
theorem C143_order (evs : List Ev) (us : List Use)
    (new : ∀ e ∈ (useAll (SHeap.ofEvents evs) us).1.flatMap Use.brings, e ∉ evs) :
    ((shown (useAll (SHeap.ofEvents evs) us).2.flat 0).filter fun e => e ∈ evs).Sublist evs := by
  obtain ⟨up, e⟩ := SHeap.upright_ofEvents evs
  obtain ⟨_, _, h⟩ := useAll_any us up
  have := h (fun e => decide (e ∈ evs)) (fun e he => by simpa using new e he)
  rw [e] at this
  exact this.trans List.filter_sublist

/-- A call that raises leaves the events of the project as they are. -/
theorem C143_raise (evs : List Ev) (us : List Use) (u : Use) (ht : u.tree < (useAll (SHeap.ofEvents evs) us).2.trees.length)
    {s : SHeap} {x : Exc} (hx : u.perform (useAll (SHeap.ofEvents evs) us).2 = (s, .error x)) :
    shown s.flat 0 = shown (useAll (SHeap.ofEvents evs) us).2.flat 0 := by
  have h := (use_any (useAll_any us (SHeap.upright_ofEvents evs).1).1 u ht).2
  rw [hx] at h
  exact h

/-- Two events with id 64 and one with id 5, and twice the same views of those with id 64 (the trees 1 and 2, then 3 and 4). -/
def overlapping : List Use := [.view 0 (.separate 64), .view 0 (.separate 64), .pop 1 64 0, .pop 3 64 0, .insert 4 0 (9, 7)]

/-- The same event is popped through two views (C23) and another event goes with it; then an event is inserted through a view.  No
call raises, and the numbers are as C143 says. -/
example : (useAll (SHeap.ofEvents [(0, 64), (1, 5), (2, 64)]) overlapping).1.length = 5 ∧
    shown (useAll (SHeap.ofEvents [(0, 64), (1, 5), (2, 64)]) overlapping).2.flat 0 = [(9, 7), (2, 64)] := by
  decide +kernel

/-- Popping once more raises, as the event is in neither view any more. -/
example : 3 < (useAll (SHeap.ofEvents [(0, 64), (1, 5), (2, 64)]) overlapping).2.trees.length ∧
    ((Use.remove 3 64 0).perform (useAll (SHeap.ofEvents [(0, 64), (1, 5), (2, 64)]) overlapping).2).2 = .error .keyError := by
  decide +kernel

/-- For views this is false: a `pop` that raises may have taken an event out of the view. -/
theorem C143_view_refuted :
    ¬ ∀ (evs : List Ev) (us : List Use) (t id : Nat) (n : Int), t < (useAll (SHeap.ofEvents evs) us).2.trees.length →
      ∀ x, ((useAll (SHeap.ofEvents evs) us).2.pop t id n).2 = .error x →
        shown ((useAll (SHeap.ofEvents evs) us).2.pop t id n).1.flat t = shown (useAll (SHeap.ofEvents evs) us).2.flat t := by
  intro h
  have := h [(0, 64)] [.view 0 (.separate 64), .view 0 (.separate 64), .pop 1 64 0] 2 64 0 (by decide +kernel) .valueError
    (by decide +kernel)
  revert this
  decide +kernel

end PyFLP
