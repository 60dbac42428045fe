import Verif.World
/-!
# Several projects in one process

The projects a program has opened live in one memory: `IndexedEvent`s, `EventTree`s and event objects refer to each other, and
the methods of `EventTree` follow these references (`parent`, `root`, `lst`).  Nothing in a reference says to which project it
belongs.  This module models a program that has any number of projects open.
-/

namespace PyFLP

namespace Heap

/-- `EventTree(init=(IndexedEvent(r, e) for r, e in enumerate(events)))` (`__init__.py:168-173`) in a memory that already holds
other objects; the result is the number of the tree. -/
def load (h : Heap) (evs : List (Nat × Nat)) : Heap × Nat :=
  let cells := evs.zipIdx.map fun x => ⟨x.2, x.1.1, x.1.2⟩
  newTree { h with cells := h.cells ++ cells } none (List.range' h.cells.length evs.length)

/-- In an empty memory this is what `World` starts with. -/
theorem load_empty (evs : List (Nat × Nat)) : (load ⟨[], []⟩ evs).1 = ofEvents evs := by
  unfold load ofEvents
  simp [List.range_eq_range']

end Heap

/-- An opened project in the hands of a program: the header values (`project.py:164-181`) and the event trees the program has
got from it, the first of them the tree of the project itself. -/
structure Opened where
  format : Int
  channelCount : Nat
  ppq : Nat
  trees : List Nat

/-- The memory of a process: trees, event objects (by number), and the opened projects (by the names the program gives them). -/
structure Process where
  heap : Heap
  store : Nat → Event
  projects : Nat → Option Opened

/-- What a program does with one project.  Trees are counted in the order in which the program got them.  Callbacks of `subtree`
and `subtrees` look at events; those of `subtrees` may depend on the events they were called for before. -/
inductive Action
  /-- `pyflp.parse(file)`; the event objects made are the numbers `refs 0`, `refs 1`, ... -/
  | parse (file : Bytes) (refs : Nat → Nat)
  /-- The bytes `pyflp.save` writes. -/
  | save
  /-- An event object is made. -/
  | make (ref : Nat) (e : Event)
  /-- `tree.insert(pos, event)` -/
  | insert (t : Nat) (pos : Int) (ref : Nat)
  /-- `tree.append(event)` -/
  | append (t : Nat) (ref : Nat)
  /-- `tree.pop(id, pos)` -/
  | pop (t id : Nat) (pos : Int)
  /-- `tuple(tree.divide(sep, *ids))` -/
  | divide (t sep : Nat) (ids : List Nat)
  /-- `tuple(tree.subtrees(select, repeat))` -/
  | subtrees (t : Nat) (select : List Event → Option Bool) (rep : Int)
  /-- `tuple(tree.group(*ids))` -/
  | group (t : Nat) (ids : List Nat)
  /-- `tuple(tree.separate(id))` -/
  | separate (t id : Nat)
  /-- `tree.subtree(select)` -/
  | subtree (t : Nat) (select : Event → Bool)
  /-- `tuple(tree)[i].value = v`, and changes inside the value -/
  | assign (t i : Nat) (v : Value)
  /-- assignments to `project.format`, `channel_count`, `ppq` -/
  | header (format : Int) (channelCount ppq : Nat)

/-- What the program sees of an action. -/
inductive Outcome
  /-- No such project, tree or event: the program cannot do this. -/
  | nothing
  | done
  | raised (x : Exc)
  | popped (e : Event)
  | bytes (b : Bytes)
  /-- This many trees. -/
  | got (n : Nat)
  deriving DecidableEq

namespace Process

/-- The event object of an `IndexedEvent`. -/
def event (s : Process) (a : Nat) : Event := s.store (s.heap.cell a).ref

/-- `tuple(tree)` -/
def eventsOf (s : Process) (t : Nat) : List Event := (s.heap.lst t).map s.event

/-- The program gets trees from a project. -/
def give (s : Process) (k : Nat) (o : Opened) (r : Heap × List Nat) : Process × Outcome :=
  ({ s with heap := r.1, projects := fun j => if j = k then some { o with trees := o.trees ++ r.2 } else s.projects j },
    .got r.2.length)

/-- A method that returns nothing, as the program sees it: done, or an exception. -/
def outcomeOf : Py Unit → Outcome
  | .ok () => .done
  | .error x => .raised x

/-- What is saved (`__init__.py:186-197`): the header values and the events of the project's own tree. -/
def toProject (s : Process) (o : Opened) : Project := ⟨o.format, o.channelCount, o.ppq, (o.trees.head?.map s.eventsOf).getD []⟩

variable [FloatEnv]

/-- An action on an opened project `o` named `k`. -/
def act (s : Process) (k : Nat) (o : Opened) : Action → Process × Outcome
  | .parse _ _ => (s, .nothing)
  | .make _ _ => (s, .nothing)
  | .save =>
    match saveBytes (s.toProject o) with
    | .ok b => (s, .bytes b)
    | .error x => (s, .raised x)
  | .insert t pos ref =>
    match o.trees[t]? with
    | none => (s, .nothing)
    | some n =>
      let r := s.heap.insert n pos ref (s.store ref).id
      ({ s with heap := r.1 }, outcomeOf r.2)
  | .append t ref =>
    match o.trees[t]? with
    | none => (s, .nothing)
    | some n =>
      let r := s.heap.append n ref (s.store ref).id
      ({ s with heap := r.1 }, outcomeOf r.2)
  | .pop t id pos =>
    match o.trees[t]? with
    | none => (s, .nothing)
    | some n =>
      match s.heap.pop n id pos with
      | (h, .ok ref) => ({ s with heap := h }, .popped (s.store ref))
      | (h, .error x) => ({ s with heap := h }, .raised x)
  | .divide t sep ids =>
    match o.trees[t]? with
    | none => (s, .nothing)
    | some n => s.give k o (s.heap.divide n sep ids)
  | .subtrees t select rep =>
    match o.trees[t]? with
    | none => (s, .nothing)
    | some n => s.give k o (s.heap.subtrees n (fun seen a => (select (seen ++ [s.event a]), seen ++ [s.event a])) [] rep)
  | .group t ids =>
    match o.trees[t]? with
    | none => (s, .nothing)
    | some n => s.give k o (s.heap.group n ids)
  | .separate t id =>
    match o.trees[t]? with
    | none => (s, .nothing)
    | some n => s.give k o (s.heap.separate n id)
  | .subtree t select =>
    match o.trees[t]? with
    | none => (s, .nothing)
    | some n =>
      let r := s.heap.subtree n fun a => select (s.event a)
      s.give k o (r.1, [r.2])
  | .assign t i v =>
    match o.trees[t]? with
    | none => (s, .nothing)
    | some n =>
      match (s.heap.lst n)[i]? with
      | none => (s, .nothing)
      | some a =>
        let ref := (s.heap.cell a).ref
        ({ s with store := fun x => if x = ref then { s.store ref with value := v } else s.store x }, .done)
  | .header f c q =>
    ({ s with projects := fun j => if j = k then some { o with format := f, channelCount := c, ppq := q } else s.projects j }, .done)

/-- The program acts on what it calls `k`. -/
def step (s : Process) (k : Nat) : Action → Process × Outcome
  | .parse file refs =>
    match parseFile file with
    | .error x => (s, .raised x)
    | .ok p =>
      let r := s.heap.load (p.events.zipIdx.map fun x => (refs x.2, x.1.id))
      ({ heap := r.1, store := fun x => ((p.events.zipIdx.filter fun y => refs y.2 = x).map Prod.fst).headD (s.store x),
         projects := fun j => if j = k then some ⟨p.format, p.channelCount, p.ppq, [r.2]⟩ else s.projects j }, .done)
  | .make ref e => ({ s with store := fun x => if x = ref then e else s.store x }, .done)
  | a =>
    match s.projects k with
    | none => (s, .nothing)
    | some o => s.act k o a

/-- A program: actions on projects, in this order. -/
def run (s : Process) : List (Nat × Action) → Process
  | [] => s
  | (k, a) :: l => (s.step k a).1.run l

/-- What the program sees of the actions on the project `k`. -/
def outcomes (s : Process) (k : Nat) : List (Nat × Action) → List Outcome
  | [] => []
  | (j, a) :: l => (if j = k then [(s.step j a).2] else []) ++ outcomes (s.step j a).1 k l

/-- What the program can see of the project `k`: header values, and for every tree it got the events with their positions
(`EventTree.indexes`). -/
def seen (s : Process) (k : Nat) : Option (Int × Nat × Nat × List (List (Int × Event))) :=
  (s.projects k).map fun o =>
    (o.format, o.channelCount, o.ppq, o.trees.map fun t => (s.heap.lst t).map fun a => (s.heap.r a, s.event a))

/-- A process that has not opened anything. -/
def start : Process := ⟨⟨[], []⟩, fun _ => default, fun _ => none⟩

end Process

end PyFLP
