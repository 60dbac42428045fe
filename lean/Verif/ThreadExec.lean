import Verif.ThreadLemmas
/-!
# A thread by itself: actions and scripts

Run without interruption, a thread sees what `Process` says.
-/

namespace PyFLP

open Heap Process Spec

namespace Prog

theorem exec_assign_none {t i : Nat} {v : Value} {h : Heap} {st : Nat → Event} (hi : (h.lst t)[i]? = none) :
    (assign t i v).exec h st = (h, st, .nothing) := by
  have e : (h.tree t).lst[i]? = none := hi
  rw [assign, exec, e]
  rfl

theorem exec_assign_some {t i a : Nat} {v : Value} {h : Heap} {st : Nat → Event} (hi : (h.lst t)[i]? = some a) :
    (assign t i v).exec h st =
      (h, (fun x => if x = (h.cell a).ref then { st (h.cell a).ref with value := v } else st x), .done) := by
  have e : (h.tree t).lst[i]? = some a := hi
  rw [assign, exec, e]
  rfl

theorem exec_listing (t : Nat) (h : Heap) (st : Nat → Event) :
    (listing t).exec h st = (h, st, (h.lst t).map fun a => st (h.cell a).ref) := by
  rw [listing, exec, exec_bind' (exec_cells _ _ _), exec_events]
  rfl

theorem exec_look (ts : List Nat) (h : Heap) (st : Nat → Event) :
    (look ts).exec h st = (h, st, ts.map fun t => (h.lst t).map fun a => (h.r a, st (h.cell a).ref)) := by
  induction ts with
  | nil => rfl
  | cons t ts ih =>
    rw [look, exec, exec_bind' (exec_cells _ _ _), exec_bind' (exec_events _ _ _), exec_bind' ih, exec]
    have e : ((snap h (h.tree t).lst).zip ((h.tree t).lst.map fun a => st (h.cell a).ref)).map (fun x => (x.1.2.r, x.2)) =
        (h.lst t).map fun a => (h.r a, st (h.cell a).ref) := by
      show _ = (h.tree t).lst.map _
      generalize (h.tree t).lst = l
      induction l with
      | nil => rfl
      | cons a l ih => exact congrArg (_ :: ·) ih
    rw [e]
    rfl

theorem exec_setEvents (l : List (Nat × Event)) (h : Heap) (st : Nat → Event) :
    (setEvents l).exec h st = (h, (fun x => ((l.reverse.filter fun y => y.1 = x).map Prod.snd).headD (st x)), ()) := by
  induction l generalizing st with
  | nil => rfl
  | cons x l ih =>
    rw [setEvents, exec, ih]
    congr 2
    funext y
    rw [List.reverse_cons, List.filter_append, List.map_append]
    cases (l.reverse.filter fun z => decide (z.1 = y)).map Prod.snd with
    | cons b l' => rfl
    | nil =>
      rw [List.nil_append]
      unfold Mem.put
      by_cases hy : y = x.1
      · rw [List.headD_nil, if_pos hy, List.filter_cons_of_pos (by simp [hy])]
        rfl
      · rw [List.headD_nil, if_neg hy, List.filter_cons_of_neg (by simp; exact fun e => hy e.symm)]
        rfl

theorem exec_newCells (cs : List Cell) (h : Heap) (st : Nat → Event) :
    (newCells cs).exec h st = ({ h with cells := h.cells ++ cs }, st, List.range' h.cells.length cs.length) := by
  induction cs generalizing h with
  | nil =>
    rw [List.append_nil]
    rfl
  | cons c cs ih =>
    rw [newCells, exec, exec_bind' (ih _), exec, List.length_cons, List.range'_succ]
    dsimp only
    rw [List.append_assoc, List.length_append]
    rfl

theorem exec_giveP {o : Opened} {p : Prog (List Nat)} {h h' : Heap} {st : Nat → Event} {vs : List Nat}
    (e : p.exec h st = (h', st, vs)) :
    (giveP o p).exec h st = (h', st, ({ o with trees := o.trees ++ vs }, .got vs.length)) := by
  unfold giveP
  rw [exec_bind' e, exec]

section
variable [FloatEnv] {own : Nat → Nat} {k : Nat} {s : Process} {lt lc : Nat → Nat}

/-- `act` in `Process` and here. -/
def Agrees (s : Process) (k : Nat) (p : Prog (Opened × Outcome)) (r : Process × Outcome) : Prop :=
  ∃ o', p.exec s.heap s.store = (r.1.heap, r.1.store, (o', r.2)) ∧ r.1.projects k = some o'

omit [FloatEnv] in
theorem agrees_give {o : Opened} {p : Prog (List Nat)} {r : Heap × List Nat}
    (e : p.exec s.heap s.store = (r.1, s.store, r.2)) : Agrees s k (giveP o p) (s.give k o r) :=
  ⟨_, exec_giveP e, if_pos rfl⟩

theorem exec_act (w : SetApart own s lt lc) {o : Opened} (ho : s.projects k = some o) (a : Action) :
    Agrees s k (act o a) (s.act k o a) := by
  have hd := older_of w.heap
  have hn : ∀ t n, o.trees[t]? = some n → n < s.heap.trees.length := fun t n ht =>
    (w.held k o ho n (List.mem_of_getElem? ht)).1
  have nothing : Agrees s k (ret (o, .nothing)) (s, .nothing) := ⟨o, rfl, ho⟩
  cases a with
  | parse file refs => exact nothing
  | make ref e => exact nothing
  | save =>
    unfold act Process.act
    have e : (saved o).exec s.heap s.store = (s.heap, s.store, (o.trees.head?.map s.eventsOf).getD []) := by
      unfold saved
      cases o.trees.head? with
      | none => rfl
      | some t => exact exec_listing t _ _
    have e2 : Process.toProject s o = ⟨o.format, o.channelCount, o.ppq, (o.trees.head?.map s.eventsOf).getD []⟩ := rfl
    unfold Agrees
    dsimp only
    rw [exec_bind' e, e2]
    cases saveBytes _ with
    | ok b => exact ⟨o, rfl, ho⟩
    | error x => exact ⟨o, rfl, ho⟩
  | insert t pos ref =>
    unfold act Process.act
    dsimp only
    cases ht : o.trees[t]? with
    | none => exact nothing
    | some n =>
      refine ⟨o, ?_, ho⟩
      dsimp only
      rw [exec, exec_bind' (exec_insert _ _ _ _ _ _ hd)]
      rfl
  | append t ref =>
    unfold act Process.act
    dsimp only
    cases ht : o.trees[t]? with
    | none => exact nothing
    | some n =>
      refine ⟨o, ?_, ho⟩
      dsimp only
      rw [exec, exec_bind' (exec_append _ _ _ _ _ hd)]
      rfl
  | pop t id pos =>
    unfold act Process.act
    dsimp only
    cases ht : o.trees[t]? with
    | none => exact nothing
    | some n =>
      unfold Agrees
      dsimp only
      rw [exec_bind' (exec_pop _ _ _ _ _ hd)]
      rcases s.heap.pop n id pos with ⟨h', x | ref⟩
      · exact ⟨o, rfl, ho⟩
      · exact ⟨o, rfl, ho⟩
  | divide t sep ids =>
    unfold act Process.act
    dsimp only
    cases ht : o.trees[t]? with
    | none => exact nothing
    | some n => exact agrees_give (exec_divide _ _ _ _ _ hd (hn t n ht))
  | subtrees t select rep =>
    unfold act Process.act
    dsimp only
    cases ht : o.trees[t]? with
    | none => exact nothing
    | some n => exact agrees_give (exec_subtrees _ _ _ _ _ hd (hn t n ht))
  | group t ids =>
    unfold act Process.act
    dsimp only
    cases ht : o.trees[t]? with
    | none => exact nothing
    | some n => exact agrees_give (exec_group _ _ _ _ hd (hn t n ht))
  | separate t id =>
    unfold act Process.act
    dsimp only
    cases ht : o.trees[t]? with
    | none => exact nothing
    | some n => exact agrees_give (exec_separate _ _ _ _ hd (hn t n ht))
  | subtree t select =>
    unfold act Process.act
    dsimp only
    cases ht : o.trees[t]? with
    | none => exact nothing
    | some n => exact agrees_give (exec_subtree _ _ _ _ hd (hn t n ht))
  | assign t i v =>
    unfold act Process.act
    dsimp only
    cases ht : o.trees[t]? with
    | none => exact nothing
    | some n =>
      unfold Agrees
      dsimp only
      cases hi : (s.heap.lst n)[i]? with
      | none =>
        rw [exec_bind' (exec_assign_none hi)]
        exact ⟨o, rfl, ho⟩
      | some a =>
        rw [exec_bind' (exec_assign_some hi)]
        exact ⟨o, rfl, ho⟩
  | header f c q => exact ⟨_, rfl, if_pos rfl⟩

theorem exec_step (w : SetApart own s lt lc) (a : Action) :
    (step (s.projects k) a).exec s.heap s.store =
      ((s.step k a).1.heap, (s.step k a).1.store, ((s.step k a).1.projects k, (s.step k a).2)) := by
  have rest : ((match s.projects k with | none => ret (none, .nothing) | some o => (act o a).bind fun r => ret (some r.1, r.2)) :
      Prog (Option Opened × Outcome)).exec s.heap s.store =
      ((match s.projects k with | none => (s, Outcome.nothing) | some o => s.act k o a).1.heap,
       (match s.projects k with | none => (s, Outcome.nothing) | some o => s.act k o a).1.store,
       ((match s.projects k with | none => (s, Outcome.nothing) | some o => s.act k o a).1.projects k,
        (match s.projects k with | none => (s, Outcome.nothing) | some o => s.act k o a).2)) := by
    cases ho : s.projects k with
    | none =>
      dsimp only
      rw [exec, ho]
    | some o =>
      obtain ⟨o', h1, h2⟩ := exec_act w ho a
      dsimp only
      rw [exec_bind' h1, exec, h2]
  cases a with
  | parse file refs =>
    unfold step
    cases hp : parseFile file with
    | error x =>
      have e : s.step k (.parse file refs) = (s, .raised x) := by unfold Process.step; dsimp only; rw [hp]
      rw [e]
      dsimp only
      rw [hp]
      rfl
    | ok p =>
      rw [step_parse hp]
      dsimp only
      rw [hp]
      dsimp only
      rw [exec_bind' (exec_setEvents _ _ _), exec_bind' (exec_newCells _ _ _), exec_bind' (exec_makeTree_none _ _ _), exec, if_pos rfl]
      have e1 : (p.events.zipIdx.map fun x => (⟨x.2, refs x.2, x.1.id⟩ : Cell)) =
          (p.events.zipIdx.map fun x => (refs x.2, x.1.id)).zipIdx.map fun x => ⟨x.2, x.1.1, x.1.2⟩ := by
        apply List.ext_getElem
        · simp
        · intro i h1 h2
          simp
      have e2 : s.heap.load (p.events.zipIdx.map fun x => (refs x.2, x.1.id)) =
          Heap.newTree { s.heap with cells := s.heap.cells ++ p.events.zipIdx.map fun x => (⟨x.2, refs x.2, x.1.id⟩ : Cell) } none
            (List.range' s.heap.cells.length (p.events.zipIdx.map fun x => (⟨x.2, refs x.2, x.1.id⟩ : Cell)).length) := by
        unfold Heap.load
        rw [e1]
        simp
      rw [e2]
      congr 2
      funext x
      rw [List.reverse_reverse, List.filter_map, List.map_map]
      rfl
  | make ref e => rfl
  | save => exact rest
  | insert => exact rest
  | append => exact rest
  | pop => exact rest
  | divide => exact rest
  | subtrees => exact rest
  | group => exact rest
  | separate => exact rest
  | subtree => exact rest
  | assign => exact rest
  | header => exact rest

theorem exec_script (l : List Action) (w : SetApart own s lt lc) (hl : ∀ a ∈ l, ∀ ref, Brings a ref → own ref = k) :
    ((script (s.projects k) l).exec s.heap s.store).2.2 =
      (s.outcomes k (l.map fun a => (k, a)), (s.run (l.map fun a => (k, a))).seen k) := by
  induction l generalizing s lt lc with
  | nil =>
    unfold script
    show _ = (([] : List Outcome), s.seen k)
    unfold Process.seen
    cases s.projects k with
    | none => rfl
    | some o =>
      dsimp only
      rw [exec_bind' (exec_look _ _ _)]
      rfl
  | cons a l ih =>
    rw [script, exec_bind' (exec_step w a)]
    obtain ⟨lt', lc', ac⟩ := step_acts (j := k) w a (hl a (by simp))
    have := ih (ac.apart w) fun b hb => hl b (by simp [hb])
    rw [exec_bind, exec]
    dsimp only
    rw [this, List.map_cons, Process.outcomes, if_pos rfl]
    rfl

end

end Prog

end PyFLP
