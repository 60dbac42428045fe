import Verif.Rack
/-!
# Generators that are resumed by a loop (`_events.py:396-404`, `479-494`, `511-515`, `548-551`, `569-592`, `pattern.py:340-355`)

`for model in collection: body` resumes a generator once for every round, and the body runs while the generator is suspended.
The rest of the model collects all views of a generator at once; here a suspended generator is a value of its own.

The iterator of `SortedList` goes through its list by a position (`chain.from_iterable(self._lists)` of sortedcontainers 2.4.0;
the library is not part of the repository).  Simplification: one list, which is exact for trees of up to 1000 events, and for all
trees as long as nothing is inserted or removed during the loop; a longer list is kept in several parts, and an insertion or
removal then shifts the position only if it is in the part the iterator has reached.
-/

namespace PyFLP

/-- The body of `for ie in self.lst`: `stop` is checked first (`if not repeat: return`), `step` gives the list of the view that is
yielded, if any, and the local variables afterwards, `last` is what is yielded after the loop. -/
structure GenBody (σ : Type) where
  stop : σ → Bool
  step : σ → Nat → Nat → Option (List Nat) × σ
  last : σ → Option (List Nat)

/-- The frame of a suspended generator: position of the list's iterator, local variables, whether it has ended. -/
structure Frame (σ : Type) where
  pos : Nat
  locals : σ
  ended : Bool

/-- A generator runs to its next `yield` or to its end. -/
def GenBody.scan {σ : Type} (b : GenBody σ) (idOf : Nat → Nat) : List Nat → Nat → σ → Option (List Nat) × Frame σ
  | [], pos, s => (b.last s, ⟨pos, s, true⟩)
  | a :: l, pos, s =>
    if b.stop s then (none, ⟨pos + 1, s, true⟩)
    else
      match b.step s a (idOf a) with
      | (some el, s') => (some el, ⟨pos + 1, s', false⟩)
      | (none, s') => b.scan idOf l (pos + 1) s'

/-- Local variables `el` and `first` of `EventTree.divide` (`_events.py:482-494`).  Simplification: the event at which it yields
is put into the new `el` before it is suspended instead of after it; only the event's id is looked at, which never changes. -/
def divideBody (sep : Nat) (ids : List Nat) : GenBody (List Nat × Bool) where
  stop _ := false
  step s a id :=
    let (out, el, first) :=
      if id = sep then (if s.2 then (none, s.1, false) else (some s.1, [], s.2)) else (none, s.1, s.2)
    (out, (if id ∈ ids then el ++ [a] else el), first)
  last s := some s.1

/-- Local variables `el`, `repeat` and the state of `select` of `EventTree.subtrees` (`_events.py:582-592`).  Simplification: `el`
and `repeat` are set before it is suspended instead of after it. -/
def subtreesBody {σ : Type} (step : σ → Nat → Option Bool × σ) : GenBody (List Nat × Int × σ) where
  stop s := decide (s.2.1 = 0)
  step s a id :=
    match step s.2.2 id with
    | (some false, q) => (some s.1, [a], s.2.1 - 1, q)
    | (some true, q) => (none, s.1 ++ [a], s.2.1, q)
    | (none, q) => (none, s.1, s.2.1, q)
  last _ := none

/-- `EventTree.separate` (`_events.py:549-551`). -/
def separateBody (id : Nat) : GenBody Unit where
  stop _ := false
  step s a i := (if i = id then some [a] else none, s)
  last _ := none

/-- `next()` of `_get_ie(id)` (`_events.py:460-461`) at a position of the list: the event and the position afterwards. -/
def seek (idOf : Nat → Nat) (id : Nat) : List Nat → Nat → Option (Nat × Nat)
  | [], _ => none
  | a :: l, pos => if idOf a = id then some (a, pos + 1) else seek idOf id l (pos + 1)

/-- A generator: its state before the first `next()`, and what `next()` does in a world: the list of the view it yields, if any. -/
structure Generator where
  σ : Type
  start : σ
  resume : World → σ → Option (List Nat) × σ

/-- The generator of a loop over `self.lst` of tree `t`. -/
def GenBody.generator {σ : Type} (b : GenBody σ) (s : σ) (t : Nat) : Generator where
  σ := Frame σ
  start := ⟨0, s, false⟩
  resume w f := if f.ended then (none, f) else b.scan w.heap.idOf ((w.heap.lst t).drop f.pos) f.pos f.locals

/-- `EventTree.group` (`_events.py:512-515`): a position for each of the ids, `none` when `_get_ie` has ended.  `zip_longest` ends
when all of them have. -/
def groupGenerator (t : Nat) (ids : List Nat) : Generator where
  σ := List (Option Nat)
  start := ids.map fun _ => some 0
  resume w ps :=
    let rs := (ids.zip ps).map fun x => x.2.bind fun pos => seek w.heap.idOf x.1 ((w.heap.lst t).drop pos) pos
    if rs.all (·.isNone) then (none, rs.map fun _ => none)
    else (some (rs.filterMap (·.map Prod.fst)), rs.map (·.map Prod.snd))

/-- `Patterns.__iter__` (`pattern.py:340-355`): the dictionary is filled when the first pattern is asked for, the trees are created
when it is each pattern's turn. -/
def patternsGenerator (t : Nat) : Generator where
  σ := Option (List (List Nat))
  start := none
  resume w s :=
    match s.getD ((patternLoop (fun a => (w.entry a).2) (.lv (.int 0)) [] (w.heap.lst t)).map Prod.snd) with
    | [] => (none, some [])
    | el :: els => (some el, some els)

namespace World

/-- `EventTree(self, el)` and `self.children.append(child)` (`_events.py:400-402`, `pattern.py:353-354`). -/
def yieldView (w : World) (t : Nat) (el : List Nat) : World × Nat :=
  let h := w.heap.newTree (some t) el
  ({ w with heap := h.1.addChild t h.2 }, h.2)

/-- `next(generator)` of a generator over tree `t`: the view, or `none` at the end. -/
def next (w : World) (t : Nat) (g : Generator) (s : g.σ) : World × Option Nat × g.σ :=
  match g.resume w s with
  | (none, s') => (w, none, s')
  | (some el, s') => ((w.yieldView t el).1, some (w.yieldView t el).2, s')

end World

/-- The loops over collections of models. -/
inductive LoopCall : Type 1
  | divide (sep : Nat) (ids : List Nat)
  | subtrees (σ : Type) (step : σ → Nat → Option Bool × σ) (s : σ) (rep : Int)
  | separate (id : Nat)
  | group (ids : List Nat) (nodup : ids.Nodup)
  | patterns

/-- The generator of a loop. -/
def LoopCall.generator (t : Nat) : LoopCall → Generator
  | .divide sep ids => (divideBody sep ids).generator ([], true) t
  | .subtrees _ step s rep => (subtreesBody step).generator ([], rep, s) t
  | .separate id => (separateBody id).generator () t
  | .group ids _ => groupGenerator t ids
  | .patterns => patternsGenerator t

/-- All views collected before anything else is done, as the rest of the model has it. -/
def World.collect (w : World) (t : Nat) : LoopCall → World × List Nat
  | .divide sep ids => w.divViews t sep ids
  | .subtrees _ step s rep => w.subViews t step s rep
  | .separate id => w.sepViews t id
  | .group ids _ => ({ w with heap := (w.heap.group t ids).1 }, (w.heap.group t ids).2)
  | .patterns => w.iterPatterns t

/-- One round of `for channel in project.channels` (`channel.py:1565-1588`): `groups` are the trees of the display groups, which are
collected when the first channel is asked for. -/
def World.nextChannel (w : World) (t : Nat) (groups : List Nat) (f : Frame (List Nat × Bool)) :
    World × Option (Py Chan) × Frame (List Nat × Bool) :=
  match w.next t ((divideBody 64 World.rackIds).generator ([], true) t) f with
  | (w', none, f') => (w', none, f')
  | (w', some u, f') => (w', some (w'.channelOf groups u), f')

end PyFLP
