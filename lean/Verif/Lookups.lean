import Verif.Loops
import Verif.Slices
/-!
# Lookups that leave their iterator early (`pattern.py:333-336`, `381-383`, `arrangement.py:447-450`, `mixer.py:400-403`, `594-597`)

`for model in self: if test: return model` leaves the iterator at the first model that passes, so that the views of later models
are not created.  The lookups of `Models.lean`, `Collections.lean` and `Slices.lean` create all of them first.
-/

namespace PyFLP

/-- `for model in self: if test(model): return model` over a generator of tree `t` that is in state `s`; `idx` is the number
`enumerate` gives next.  The loop ends without a model (`none`), with a model, or with the exception of a test. -/
inductive Search (t : Nat) (g : Generator) (test : World → Nat → Int → Py Bool) :
    World → g.σ → Int → World → Py (Option Nat) → Prop
  | ends {w s idx w' s'} (hn : w.next t g s = (w', none, s')) : Search t g test w s idx w' (.ok none)
  | found {w s idx w' u s'} (hn : w.next t g s = (w', some u, s')) (ht : test w' u idx = .ok true) :
      Search t g test w s idx w' (.ok (some u))
  | raises {w s idx w' u s' e} (hn : w.next t g s = (w', some u, s')) (ht : test w' u idx = .error e) :
      Search t g test w s idx w' (.error e)
  | skips {w s idx w' u s' w'' res} (hn : w.next t g s = (w', some u, s')) (ht : test w' u idx = .ok false)
      (rest : Search t g test w' s' (idx + 1) w'' res) : Search t g test w s idx w'' res

/-- `(isinstance(i, int) and idx == i) or i == model.name`. -/
def subscriptIs (i : Subscript) (name : Option Value) (idx : Int) : Bool :=
  (match i with
    | .int n => decide (idx = n)
    | _ => false) || (match i with
    | .str s => decide (name = some (.str s))
    | _ => false)

namespace World

/-- `project.patterns[i]` (`pattern.py:333-336`): `None` stands for leaving the loop, after which `ModelNotFound` is raised. -/
def PatternLookup (w : World) (t : Nat) (i : Subscript) (w' : World) (res : Py (Option Nat)) : Prop :=
  Search t (LoopCall.generator t .patterns) (fun w u idx => .ok (subscriptIs i (w.patternName u) idx)) w
    (LoopCall.generator t .patterns).start 0 w' res

/-- The loop of `project.patterns.current` (`pattern.py:381-383`) for the value `v` of the event. -/
def CurrentLookup (w : World) (t : Nat) (v : Value) (w' : World) (res : Py (Option Nat)) : Prop :=
  Search t (LoopCall.generator t .patterns) (fun w u _ => (w.patternIid u).map fun iid => decide (iid = v)) w
    (LoopCall.generator t .patterns).start 0 w' res

/-- `project.arrangements[i]` (`arrangement.py:447-450`) for a project with `n` arrangements. -/
def ArrangementLookup (w : World) (t : Nat) (n : Nat) (i : Subscript) (w' : World) (res : Py (Option Nat)) : Prop :=
  Search t (LoopCall.generator t (.subtrees Bool arrangementStep false n))
    (fun w u idx => .ok (subscriptIs i (w.arrangementName u) idx)) w
    (LoopCall.generator t (.subtrees Bool arrangementStep false n)).start 0 w' res

/-- `project.mixer[i]` (`mixer.py:594-597`): counting from `-1`. -/
def InsertLookup (w : World) (t : Nat) (v : FLVersion) (i : Subscript) (w' : World) (res : Py (Option Nat)) : Prop :=
  Search t (LoopCall.generator t (.subtrees Unit insertStep () (maxInserts v)))
    (fun w u idx => .ok (subscriptIs i (w.insertName u) idx)) w
    (LoopCall.generator t (.subtrees Unit insertStep () (maxInserts v))).start (-1) w' res

/-- `insert[i]` (`mixer.py:400-403`) of an insert with `params`. -/
def SlotLookup (w : World) (t : Nat) (i : Subscript) (w' : World) (res : Py (Option Nat)) : Prop :=
  Search t (LoopCall.generator t (.divide 98 [98, 128, 155, 201, 203, 212, 213]))
    (fun w u idx => .ok (subscriptIs i (w.slotName u) idx)) w
    (LoopCall.generator t (.divide 98 [98, 128, 155, 201, 203, 212, 213])).start 0 w' res

end World


/-- The search of `project.channels[i]` (`channel.py:1556-1559`) over the iterator in state `f`; `seen` are the channels it has
yielded, which are those the shared dictionary has. -/
inductive RackSearch (t : Nat) (groups : List Nat) (i : Subscript) :
    World → Frame (List Nat × Bool) → List Chan → World → Py (Chan × List Chan) → Prop
  | ends {w f seen w' f'} (hn : w.nextChannel t groups f = (w', none, f')) :
      RackSearch t groups i w f seen w' (.error .channelNotFound)
  | raises {w f seen w' f' e} (hn : w.nextChannel t groups f = (w', some (.error e), f')) :
      RackSearch t groups i w f seen w' (.error e)
  | found {w f seen w' f' c} (hn : w.nextChannel t groups f = (w', some (.ok c), f')) (hm : w'.rackMatch i c = true) :
      RackSearch t groups i w f seen w' (.ok (c, seen ++ [c]))
  | skips {w f seen w' f' c w'' res} (hn : w.nextChannel t groups f = (w', some (.ok c), f')) (hm : w'.rackMatch i c = false)
      (rest : RackSearch t groups i w' f' (seen ++ [c]) w'' res) : RackSearch t groups i w f seen w'' res

/-- `project.channels[i]`: the display groups are collected when the first channel is asked for. -/
def World.ChannelLookup (w : World) (t : Nat) (i : Subscript) (w' : World) (res : Py (Chan × List Chan)) : Prop :=
  RackSearch t (w.sepViews t 231).2 i (w.sepViews t 231).1 ((LoopCall.divide 64 World.rackIds).generator t).start [] w' res

end PyFLP
