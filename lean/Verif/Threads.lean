import Verif.Process
/-!
# Threads

The methods of `EventTree`, `pyflp.parse` and `pyflp.save` access the objects in memory one after the other; a thread may be
interrupted between any two accesses, and other threads go on.  Here each of them is written as a program of such accesses.  What
is computed between two accesses depends on nothing another thread could change.

An access reads or writes one `IndexedEvent`, one list or other attribute of one `EventTree`, or one event object.  (In CPython an
access to a `SortedList` consists of several of them; they all go to parts of the same list object.)
-/

namespace PyFLP

/-- A program: one access, then what follows, depending on what was read. -/
inductive Prog (α : Type)
  /-- The program is done. -/
  | ret (x : α)
  /-- Read an `IndexedEvent`. -/
  | getCell (a : Nat) (next : Cell → Prog α)
  /-- `ie.r = x` -/
  | setR (a : Nat) (x : Int) (next : Prog α)
  /-- `IndexedEvent(...)` -/
  | newCell (c : Cell) (next : Nat → Prog α)
  /-- Read an `EventTree`: parent, root, list. -/
  | getTree (t : Nat) (next : Tree → Prog α)
  /-- Change `et.lst`. -/
  | setLst (t : Nat) (l : List Nat) (next : Prog α)
  /-- `et.children.append(c)` -/
  | addChild (t c : Nat) (next : Prog α)
  /-- A new `EventTree` object; root `none` means itself. -/
  | newTree (par root : Option Nat) (l : List Nat) (next : Nat → Prog α)
  /-- Read an event object. -/
  | getEvent (ref : Nat) (next : Event → Prog α)
  /-- Make or change an event object. -/
  | setEvent (ref : Nat) (e : Event) (next : Prog α)

namespace Prog

/-- One program after the other. -/
def bind {α β : Type} : Prog α → (α → Prog β) → Prog β
  | ret x, f => f x
  | getCell a k, f => getCell a fun c => (k c).bind f
  | setR a x k, f => setR a x (k.bind f)
  | newCell c k, f => newCell c fun a => (k a).bind f
  | getTree t k, f => getTree t fun o => (k o).bind f
  | setLst t l k, f => setLst t l (k.bind f)
  | addChild t c k, f => addChild t c (k.bind f)
  | newTree p r l k, f => newTree p r l fun t => (k t).bind f
  | getEvent ref k, f => getEvent ref fun e => (k e).bind f
  | setEvent ref e k, f => setEvent ref e (k.bind f)

/-! ### The methods -/

/-- The `IndexedEvent`s of a list, one after the other. -/
def cells : List Nat → Prog (List (Nat × Cell))
  | [] => ret []
  | a :: l => getCell a fun c => (cells l).bind fun cs => ret ((a, c) :: cs)

/-- The event objects of `IndexedEvent`s. -/
def events : List (Nat × Cell) → Prog (List Event)
  | [] => ret []
  | x :: cs => getEvent x.2.ref fun e => (events cs).bind fun es => ret (e :: es)

/-- `for ie in self.root.lst: if ie.r >= rootidx: ie.r += 1` (`_events.py:523-525`) -/
def shiftUp (x : Int) : List Nat → Prog Unit
  | [] => ret ()
  | a :: l => getCell a fun c => if x ≤ c.r then setR a (c.r + 1) (shiftUp x l) else shiftUp x l

/-- `for root_ie in self.root.lst: if root_ie.r >= ie.r: root_ie.r -= 1` (`_events.py:538-540`) -/
def shiftDown (ie : Nat) : List Nat → Prog Unit
  | [] => ret ()
  | a :: l => getCell ie fun ci => getCell a fun c =>
    if ci.r ≤ c.r then setR a (c.r - 1) (shiftDown ie l) else shiftDown ie l

/-- `_recursive(lambda et: et.lst.add(IndexedEvent(rootidx, e)))` (`_events.py:463-469`, `527`), at most `n` rounds. -/
def addUp (c : Cell) : Nat → Nat → Prog Unit
  | 0, _ => ret ()
  | n + 1, t => newCell c fun a => getTree t fun o => (cells o.lst).bind fun cs =>
    let k := (cs.takeWhile fun x => decide (x.2.r ≤ c.r)).length
    setLst t (o.lst.take k ++ a :: o.lst.drop k) <| getTree t fun o =>
      match o.parent with
      | none => ret ()
      | some p => addUp c n p

/-- `_recursive(lambda et: et.lst.remove(ie))` (`_events.py:463-469`, `535`), at most `n` rounds. -/
def removeUp (ie : Nat) : Nat → Nat → Prog (Py Unit)
  | 0, _ => ret (.ok ())
  | n + 1, t => getCell ie fun ci => getTree t fun o => (cells o.lst).bind fun cs =>
    let k := (cs.takeWhile fun x => decide (x.2.r < ci.r)).length
    match cs[k]? with
    | none => ret (.error .valueError)
    | some b =>
      if b.2.r = ci.r then
        setLst t (o.lst.eraseIdx k) <| getTree t fun o =>
          match o.parent with
          | none => ret (.ok ())
          | some p => removeUp ie n p
      else ret (.error .valueError)

/-- `EventTree.insert(pos, e)` (`_events.py:517-527`).  A tree has fewer than `t + 1` ancestors: they are older. -/
def insert (t : Nat) (pos : Int) (ref id : Nat) : Prog (Py Unit) :=
  getTree t fun o => (cells o.lst).bind fun cs =>
    match (if o.lst.isEmpty then some 0 else
      pyIndex (sortBy (fun a b => decide (a ≤ b)) (cs.map fun x => x.2.r)).eraseDups pos) with
    | none => ret (.error .indexError)
    | some x => getTree o.root fun ro => (shiftUp x ro.lst).bind fun _ =>
      (addUp ⟨x, ref, id⟩ (t + 1) t).bind fun _ => ret (.ok ())

/-- `EventTree.append(e)` (`_events.py:471-473`) -/
def append (t : Nat) (ref id : Nat) : Prog (Py Unit) :=
  getTree t fun o => insert t o.lst.length ref id

/-- `EventTree.pop(id, pos)` (`_events.py:529-542`); the list is read once. -/
def pop (t id : Nat) (pos : Int) : Prog (Py Nat) :=
  getTree t fun o => (cells o.lst).bind fun cs =>
    if cs.any fun x => x.2.id == id then
      match pyIndex ((cs.filter fun x => x.2.id == id).map Prod.fst) pos with
      | none => ret (.error .indexError)
      | some ie => (removeUp ie (t + 1) t).bind fun
        | .error e => ret (.error e)
        | .ok () => getTree t fun o => getTree o.root fun ro => (shiftDown ie ro.lst).bind fun _ =>
          getCell ie fun c => ret (.ok c.ref)
    else ret (.error .keyError)

/-- The topmost ancestor (`_events.py:431-432`), at most `n` rounds. -/
def top : Nat → Nat → Prog Nat
  | 0, t => ret t
  | n + 1, t => getTree t fun o =>
    match o.parent with
    | none => ret t
    | some p => top n p

/-- `EventTree(parent, init)` (`_events.py:418-433`) -/
def makeTree (par : Option Nat) (init : List Nat) : Prog Nat :=
  (cells init).bind fun cs =>
    let l := (sortBy (fun x y => decide (x.2.r ≤ y.2.r)) cs).map Prod.fst
    match par with
    | none => newTree none none l ret
    | some p => (top (p + 1) p).bind fun tp => getTree tp fun o =>
      newTree (some p) (if o.lst.isEmpty then none else some tp) l fun t => addChild p t (ret t)

/-- The trees a method yields, registered by `yields_child` (`_events.py:396-404`). -/
def makeViews (t : Nat) : List (List Nat) → Prog (List Nat)
  | [] => ret []
  | el :: els => (makeTree (some t) el).bind fun v => addChild t v <| (makeViews t els).bind fun vs => ret (v :: vs)

/-- Views given by places in the list of a tree. -/
def picks (cs : List (Nat × Cell)) (els : List (List Nat)) : List (List Nat) :=
  els.map fun el => el.map fun i => (cs.getD i default).1

/-- `tuple(tree.divide(sep, *ids))` (`_events.py:480-494`) -/
def divide (t sep : Nat) (ids : List Nat) : Prog (List Nat) :=
  getTree t fun o => (cells o.lst).bind fun cs =>
    makeViews t (picks cs (divideLoop (fun i => (cs.getD i default).2.id) sep ids (List.range cs.length) [] true))

/-- `tuple(tree.subtrees(select, repeat))` (`_events.py:569-592`); `select` is called with the events seen so far. -/
def subtrees (t : Nat) (select : List Event → Option Bool) (rep : Int) : Prog (List Nat) :=
  getTree t fun o => (cells o.lst).bind fun cs => (events cs).bind fun es =>
    makeViews t (picks cs (subtreesLoop (runSelect (fun seen i => (select (seen ++ [es.getD i default]), seen ++ [es.getD i default])) []
      (List.range cs.length)) [] rep))

/-- `tuple(tree.group(*ids))` (`_events.py:511-515`) -/
def group (t : Nat) (ids : List Nat) : Prog (List Nat) :=
  getTree t fun o => (cells o.lst).bind fun cs =>
    makeViews t (picks cs (groupLists (fun i => (cs.getD i default).2.id) (List.range cs.length) ids))

/-- `tuple(tree.separate(id))` (`_events.py:548-551`) -/
def separate (t id : Nat) : Prog (List Nat) :=
  getTree t fun o => (cells o.lst).bind fun cs =>
    makeViews t (picks cs (((List.range cs.length).filter fun i => (cs.getD i default).2.id = id).map fun i => [i]))

/-- `tree.subtree(select)` (`_events.py:553-567`) -/
def subtree (t : Nat) (select : Event → Bool) : Prog (List Nat) :=
  getTree t fun o => (cells o.lst).bind fun cs => (events cs).bind fun es =>
    makeViews t (picks cs [(List.range cs.length).filter fun i => select (es.getD i default)])

/-- `tuple(tree)[i].value = v` -/
def assign (t i : Nat) (v : Value) : Prog Outcome :=
  getTree t fun o =>
    match o.lst[i]? with
    | none => ret .nothing
    | some a => getCell a fun c => getEvent c.ref fun e => setEvent c.ref { e with value := v } (ret .done)

/-- `tuple(tree)` -/
def listing (t : Nat) : Prog (List Event) := getTree t fun o => (cells o.lst).bind events

/-- The events of the trees with their positions. -/
def look : List Nat → Prog (List (List (Int × Event)))
  | [] => ret []
  | t :: ts => getTree t fun o => (cells o.lst).bind fun cs => (events cs).bind fun es =>
    (look ts).bind fun ls => ret ((cs.zip es).map (fun x => (x.1.2.r, x.2)) :: ls)

/-- New event objects. -/
def setEvents : List (Nat × Event) → Prog Unit
  | [] => ret ()
  | x :: l => setEvent x.1 x.2 (setEvents l)

/-- `IndexedEvent(r, e) for r, e in enumerate(events)` (`__init__.py:169`) -/
def newCells : List Cell → Prog (List Nat)
  | [] => ret []
  | c :: cs => newCell c fun a => (newCells cs).bind fun l => ret (a :: l)

/-- What becomes of the opened project when trees are handed out. -/
def giveP (o : Opened) (p : Prog (List Nat)) : Prog (Opened × Outcome) :=
  p.bind fun vs => ret ({ o with trees := o.trees ++ vs }, .got vs.length)

/-- What is saved: the events of the project's own tree (`__init__.py:186-197`). -/
def saved (o : Opened) : Prog (List Event) :=
  match o.trees.head? with
  | none => ret []
  | some t => listing t

variable [FloatEnv]

/-- An action on an opened project (compare `Process.act`). -/
def act (o : Opened) : Action → Prog (Opened × Outcome)
  | .parse _ _ => ret (o, .nothing)
  | .make _ _ => ret (o, .nothing)
  | .save =>
    (saved o).bind fun evs =>
    match saveBytes ⟨o.format, o.channelCount, o.ppq, evs⟩ with
    | .ok b => ret (o, .bytes b)
    | .error x => ret (o, .raised x)
  | .insert t pos ref =>
    match o.trees[t]? with
    | none => ret (o, .nothing)
    | some n => getEvent ref fun e => (insert n pos ref e.id).bind fun r => ret (o, Process.outcomeOf r)
  | .append t ref =>
    match o.trees[t]? with
    | none => ret (o, .nothing)
    | some n => getEvent ref fun e => (append n ref e.id).bind fun r => ret (o, Process.outcomeOf r)
  | .pop t id pos =>
    match o.trees[t]? with
    | none => ret (o, .nothing)
    | some n => (pop n id pos).bind fun
      | .ok ref => getEvent ref fun e => ret (o, .popped e)
      | .error x => ret (o, .raised x)
  | .divide t sep ids =>
    match o.trees[t]? with
    | none => ret (o, .nothing)
    | some n => giveP o (divide n sep ids)
  | .subtrees t select rep =>
    match o.trees[t]? with
    | none => ret (o, .nothing)
    | some n => giveP o (subtrees n select rep)
  | .group t ids =>
    match o.trees[t]? with
    | none => ret (o, .nothing)
    | some n => giveP o (group n ids)
  | .separate t id =>
    match o.trees[t]? with
    | none => ret (o, .nothing)
    | some n => giveP o (separate n id)
  | .subtree t select =>
    match o.trees[t]? with
    | none => ret (o, .nothing)
    | some n => giveP o (subtree n select)
  | .assign t i v =>
    match o.trees[t]? with
    | none => ret (o, .nothing)
    | some n => (assign n i v).bind fun r => ret (o, r)
  | .header f c q => ret ({ o with format := f, channelCount := c, ppq := q }, .done)

/-- An action of a thread on its project, which may not be opened yet (compare `Process.step`). -/
def step (o : Option Opened) : Action → Prog (Option Opened × Outcome)
  | .parse file refs =>
    match parseFile file with
    | .error x => ret (o, .raised x)
    | .ok p => (setEvents (p.events.zipIdx.map fun x => (refs x.2, x.1)).reverse).bind fun _ =>
      (newCells (p.events.zipIdx.map fun x => ⟨x.2, refs x.2, x.1.id⟩)).bind fun l =>
      (makeTree none l).bind fun t => ret (some ⟨p.format, p.channelCount, p.ppq, [t]⟩, .done)
  | .make ref e => setEvent ref e (ret (o, .done))
  | a =>
    match o with
    | none => ret (none, .nothing)
    | some o => (act o a).bind fun r => ret (some r.1, r.2)

/-- What a thread has seen of its project in the end. -/
abbrev Seen := Option (Int × Nat × Nat × List (List (Int × Event)))

/-- A thread: actions on its project, one after the other; in the end it looks at the header values and all trees it has. -/
def script (o : Option Opened) : List Action → Prog (List Outcome × Seen)
  | [] =>
    match o with
    | none => ret ([], none)
    | some o => (look o.trees).bind fun ls => ret ([], some (o.format, o.channelCount, o.ppq, ls))
  | a :: l => (step o a).bind fun r => (script r.1 l).bind fun s => ret (r.2 :: s.1, s.2)

end Prog

/-! ### Memory and threads -/

/-- The memory all threads share.  Objects are known by their identities. -/
structure Mem where
  cells : Nat → Cell
  trees : Nat → Tree
  store : Nat → Event
  /-- How many objects each thread has made. -/
  made : Nat → Nat × Nat

/-- The identities of new objects: the `n`-th `IndexedEvent` (or `EventTree`) that the thread `k` makes gets the identity
`id k n`, which no other object has or gets. -/
structure Identities where
  id : Nat → Nat → Nat
  fresh : ∀ k n k' n', id k n = id k' n' → k = k' ∧ n = n'
  /-- Only to bound loops: later objects have greater numbers. -/
  later : ∀ k n, n ≤ id k n

namespace Mem

/-- A value at one place is replaced. -/
def put {α : Type} (f : Nat → α) (a : Nat) (x : α) : Nat → α := fun b => if b = a then x else f b

/-- The thread `k` makes the next access of its program. -/
def access {α : Type} (ids : Identities) (k : Nat) (m : Mem) : Prog α → Mem × Prog α
  | .ret x => (m, .ret x)
  | .getCell a p => (m, p (m.cells a))
  | .setR a x p => ({ m with cells := put m.cells a { m.cells a with r := x } }, p)
  | .newCell c p =>
    let a := ids.id k (m.made k).1
    ({ m with cells := put m.cells a c, made := put m.made k ((m.made k).1 + 1, (m.made k).2) }, p a)
  | .getTree t p => (m, p (m.trees t))
  | .setLst t l p => ({ m with trees := put m.trees t { m.trees t with lst := l } }, p)
  | .addChild t c p => ({ m with trees := put m.trees t { m.trees t with children := (m.trees t).children ++ [c] } }, p)
  | .newTree par root l p =>
    let t := ids.id k (m.made k).2
    ({ m with trees := put m.trees t ⟨par, root.getD t, l, []⟩, made := put m.made k ((m.made k).1, (m.made k).2 + 1) }, p t)
  | .getEvent ref p => (m, p (m.store ref))
  | .setEvent ref e p => ({ m with store := put m.store ref e }, p)

/-- An empty memory. -/
def empty : Mem := ⟨fun _ => default, fun _ => default, fun _ => default, fun _ => (0, 0)⟩

end Mem

/-- Threads and their memory. -/
structure Threads (α : Type) where
  mem : Mem
  prog : Nat → Prog α

/-- The threads get their turns as in the schedule, for one access each. -/
def Threads.run {α : Type} (ids : Identities) (s : Threads α) : List Nat → Threads α
  | [] => s
  | k :: sched =>
    let r := s.mem.access ids k (s.prog k)
    Threads.run ids ⟨r.1, Mem.put s.prog k r.2⟩ sched

end PyFLP
