import Verif.ThreadSim
/-!
# Threads working on projects of their own (C142)
-/

namespace PyFLP

open Heap Process Spec

/-! ### One access -/

theorem Mem.put_same {α : Type} (f : Nat → α) (a : Nat) (x : α) : Mem.put f a x a = x := if_pos rfl

theorem Mem.put_other {α : Type} (f : Nat → α) {a b : Nat} (x : α) (h : b ≠ a) : Mem.put f a x b = f b := if_neg h

/-- The objects of the thread `k` in the shared memory are like those in a memory of its own. -/
structure Holds (own : Nat → Nat) (ids : Identities) (k : Nat) (m : Mem) (h : Heap) (st : Nat → Event) (nt nc : Nat) : Prop where
  made : m.made k = (nc, nt)
  tlen : h.trees.length = nt
  clen : h.cells.length = nc
  cell : ∀ a, a < nc → m.cells (ids.id k a) = h.cell a
  tree : ∀ t, t < nt → m.trees (ids.id k t) = (h.tree t).ren (ids.id k)
  store : ∀ ref, own ref = k → m.store ref = st ref
  ref : ∀ a, a < nc → own (h.cell a).ref = k
  good : ∀ t, t < nt → (h.tree t).Good nt nc t

/-- The accesses a program makes. -/
def Prog.turns {α : Type} : Prog α → Heap → (Nat → Event) → Nat
  | ret _, _, _ => 0
  | getCell a k, h, st => (k (h.cell a)).turns h st + 1
  | setR a x k, h, st => k.turns (h.setR a x) st + 1
  | newCell c k, h, st => (k h.cells.length).turns { h with cells := h.cells ++ [c] } st + 1
  | getTree t k, h, st => (k (h.tree t)).turns h st + 1
  | setLst t l k, h, st => k.turns (h.setLst t l) st + 1
  | addChild t c k, h, st => k.turns (h.addChild t c) st + 1
  | newTree p r l k, h, st => (k h.trees.length).turns { h with trees := h.trees ++ [⟨p, r.getD h.trees.length, l, []⟩] } st + 1
  | getEvent ref k, h, st => (k (st ref)).turns h st + 1
  | setEvent ref e k, h, st => k.turns h (Mem.put st ref e) + 1

section
variable {own : Nat → Nat} {ids : Identities} {k : Nat} {m : Mem} {h : Heap} {st : Nat → Event} {nt nc : Nat}

theorem Identities.inj (ids : Identities) {k a b : Nat} (h : b ≠ a) : ids.id k b ≠ ids.id k a := fun e => h (ids.fresh _ _ _ _ e).2

theorem Identities.apart (ids : Identities) {k j a b : Nat} (h : j ≠ k) : ids.id k b ≠ ids.id j a :=
  fun e => h (ids.fresh _ _ _ _ e).1.symm

/-- An access to an object of its own. -/
theorem own_access {α β : Type} {R : Nat → Nat → α → β → Prop} {p : Prog α} {q : Prog β}
    (s : Sim own k (ids.id k) R nt nc p q) (w : Holds own ids k m h st nt nc) :
    ∃ nt' nc' q' h' st', Sim own k (ids.id k) R nt' nc' (m.access ids k p).2 q' ∧
      Holds own ids k (m.access ids k p).1 h' st' nt' nc' ∧ q'.exec h' st' = q.exec h st ∧ q'.turns h' st' = q.turns h st - 1 := by
  cases s with
  | ret hr => exact ⟨nt, nc, _, h, st, .ret hr, w, rfl, by simp [Prog.turns]⟩
  | @getCell _ _ a p q ha hn =>
    refine ⟨nt, nc, q (h.cell a), h, st, ?_, w, rfl, by simp [Prog.turns]⟩
    show Sim _ _ _ _ _ _ (p (m.cells (ids.id k a))) _
    rw [w.cell _ ha]
    exact hn _ (w.ref _ ha)
  | @setR _ _ a x p q ha hn =>
    refine ⟨nt, nc, q, h.setR a x, st, hn, ?_, rfl, by simp [Prog.turns]⟩
    refine ⟨w.made, w.tlen, by rw [len_setR]; exact w.clen, fun b hb => ?_, w.tree, w.store, fun b hb => ?_, w.good⟩
    · rw [cell_setR]
      show Mem.put _ _ _ _ = _
      by_cases e : b = a
      · subst e
        rw [Mem.put_same, if_pos ⟨rfl, by rw [w.clen]; exact ha⟩, w.cell b hb]
      · rw [Mem.put_other _ _ (ids.inj e), if_neg (fun c => e c.1), w.cell b hb]
    · rw [ref_setR]; exact w.ref b hb
  | @newCell _ _ c p q hc hn =>
    have e0 : m.made k = (nc, nt) := w.made
    refine ⟨nt, nc + 1, q nc, { h with cells := h.cells ++ [c] }, st, ?_, ?_, ?_, ?_⟩
    · show Sim _ _ _ _ _ _ (p (ids.id k (m.made k).1)) _
      rw [e0]; exact hn
    · refine ⟨?_, w.tlen, by simp [w.clen], fun b hb => ?_, w.tree, w.store, fun b hb => ?_, fun t ht => ?_⟩
      · show Mem.put m.made k _ k = _
        rw [Mem.put_same, e0]
      · show Mem.put m.cells (ids.id k (m.made k).1) c (ids.id k b) = _
        rw [e0]
        by_cases e : b = nc
        · subst e
          rw [Mem.put_same]
          have := cell_append_eq (h := h) (c := c)
          rw [w.clen] at this
          exact this.symm
        · rw [Mem.put_other _ _ (ids.inj e), cell_append_lt (by rw [w.clen]; omega), w.cell b (by omega)]
      · by_cases e : b = nc
        · subst e
          have := cell_append_eq (h := h) (c := c)
          rw [w.clen] at this
          rw [this]; exact hc
        · rw [cell_append_lt (by rw [w.clen]; omega)]
          exact w.ref b (by omega)
      · have g := w.good t ht
        exact ⟨g.parent, g.root, fun a ha => by have := g.lst a ha; omega⟩
    · show _ = (q h.cells.length).exec _ st
      rw [w.clen]
    · simp [Prog.turns, w.clen]
  | @getTree _ _ t p q ht hn =>
    refine ⟨nt, nc, q (h.tree t), h, st, ?_, w, rfl, by simp [Prog.turns]⟩
    show Sim _ _ _ _ _ _ (p (m.trees (ids.id k t))) _
    rw [w.tree _ ht]
    exact hn _ (w.good _ ht)
  | @setLst _ _ t l p q ht hl hn =>
    refine ⟨nt, nc, q, h.setLst t l, st, hn, ?_, rfl, by simp [Prog.turns]⟩
    refine ⟨w.made, by rw [tlen_setLst]; exact w.tlen, w.clen, w.cell, fun u hu => ?_, w.store, w.ref, fun u hu => ?_⟩
    · rw [tree_setLst]
      show Mem.put _ _ _ _ = _
      by_cases e : u = t
      · subst e
        rw [Mem.put_same, if_pos ⟨rfl, by rw [w.tlen]; exact ht⟩, w.tree u hu]
        rfl
      · rw [Mem.put_other _ _ (ids.inj e), if_neg (fun c => e c.1), w.tree u hu]
    · have g := w.good u hu
      rw [tree_setLst]
      split
      · exact ⟨g.parent, g.root, hl⟩
      · exact g
  | @addChild _ _ t c p q ht hn =>
    refine ⟨nt, nc, q, h.addChild t c, st, hn, ?_, rfl, by simp [Prog.turns]⟩
    refine ⟨w.made, by rw [tlen_addChild]; exact w.tlen, w.clen, w.cell, fun u hu => ?_, w.store, w.ref, fun u hu => ?_⟩
    · rw [tree_addChild]
      show Mem.put _ _ _ _ = _
      by_cases e : u = t
      · subst e
        rw [Mem.put_same, if_pos ⟨rfl, by rw [w.tlen]; exact ht⟩, w.tree u hu]
        simp [Tree.ren]
      · rw [Mem.put_other _ _ (ids.inj e), if_neg (fun c => e c.1), w.tree u hu]
    · have g := w.good u hu
      rw [tree_addChild]
      split
      · exact ⟨g.parent, g.root, g.lst⟩
      · exact g
  | @newTree _ _ par root l p q hp hr hl hn =>
    have e0 : m.made k = (nc, nt) := w.made
    refine ⟨nt + 1, nc, q nt, { h with trees := h.trees ++ [⟨par, root.getD nt, l, []⟩] }, st, ?_, ?_, ?_, ?_⟩
    · show Sim _ _ _ _ _ _ (p (ids.id k (m.made k).2)) _
      rw [e0]; exact hn
    · refine ⟨?_, by simp [w.tlen], w.clen, w.cell, fun u hu => ?_, w.store, w.ref, fun u hu => ?_⟩
      · show Mem.put m.made k _ k = _
        rw [Mem.put_same, e0]
      · show Mem.put m.trees (ids.id k (m.made k).2) _ (ids.id k u) = _
        rw [e0, tree_append, w.tlen]
        by_cases e : u = nt
        · subst e
          rw [Mem.put_same, if_pos rfl]
          cases root <;> rfl
        · rw [Mem.put_other _ _ (ids.inj e), if_neg e, w.tree u (by omega)]
      · rw [tree_append, w.tlen]
        by_cases e : u = nt
        · subst e
          rw [if_pos rfl]
          refine ⟨fun v hv => hp v hv, ?_, hl⟩
          cases root with
          | none => exact Nat.lt_succ_self _
          | some v => have := hr v rfl; show v < _; omega
        · rw [if_neg e]
          have g := w.good u (by omega)
          exact ⟨g.parent, by have := g.root; omega, g.lst⟩
    · show _ = (q h.trees.length).exec _ st
      rw [w.tlen]
    · simp [Prog.turns, w.tlen]
  | @getEvent _ _ ref p q hr hn =>
    refine ⟨nt, nc, q (st ref), h, st, ?_, w, rfl, by simp [Prog.turns]⟩
    show Sim _ _ _ _ _ _ (p (m.store ref)) _
    rw [w.store _ hr]
    exact hn _
  | @setEvent _ _ ref e p q hr hn =>
    refine ⟨nt, nc, q, h, Mem.put st ref e, hn, ?_, rfl, by simp [Prog.turns]⟩
    refine ⟨w.made, w.tlen, w.clen, w.cell, w.tree, fun x hx => ?_, w.ref, w.good⟩
    show Mem.put m.store ref e x = Mem.put st ref e x
    unfold Mem.put
    split
    · rfl
    · exact w.store x hx

/-- An access of another thread. -/
theorem other_access {α β : Type} {R : Nat → Nat → α → β → Prop} {p : Prog α} {q : Prog β} {j nt' nc' : Nat} (hj : j ≠ k)
    (s : Sim own j (ids.id j) R nt' nc' p q) (w : Holds own ids k m h st nt nc) :
    Holds own ids k (m.access ids j p).1 h st nt nc := by
  have hk : k ≠ j := fun e => hj e.symm
  cases s with
  | ret hr => exact w
  | getCell ha hn => exact w
  | setR ha hn =>
    exact ⟨w.made, w.tlen, w.clen, fun a h => (Mem.put_other _ _ (ids.apart hj)).trans (w.cell a h), w.tree, w.store, w.ref, w.good⟩
  | newCell hc hn =>
    exact ⟨(Mem.put_other _ _ hk).trans w.made, w.tlen, w.clen, fun a h => (Mem.put_other _ _ (ids.apart hj)).trans (w.cell a h),
      w.tree, w.store, w.ref, w.good⟩
  | getTree ht hn => exact w
  | setLst ht hl hn =>
    exact ⟨w.made, w.tlen, w.clen, w.cell, fun a h => (Mem.put_other _ _ (ids.apart hj)).trans (w.tree a h), w.store, w.ref, w.good⟩
  | addChild ht hn =>
    exact ⟨w.made, w.tlen, w.clen, w.cell, fun a h => (Mem.put_other _ _ (ids.apart hj)).trans (w.tree a h), w.store, w.ref, w.good⟩
  | newTree hp hr hl hn =>
    exact ⟨(Mem.put_other _ _ hk).trans w.made, w.tlen, w.clen, w.cell,
      fun a h => (Mem.put_other _ _ (ids.apart hj)).trans (w.tree a h), w.store, w.ref, w.good⟩
  | getEvent hr hn => exact w
  | setEvent hr hn =>
    refine ⟨w.made, w.tlen, w.clen, w.cell, w.tree, fun x hx => ?_, w.ref, w.good⟩
    exact (Mem.put_other _ _ (fun e => hj (by rw [← hr, ← e, hx]))).trans (w.store x hx)

/-! ### All threads -/

/-- Each thread is somewhere on the way of the program `q k` by itself, and needs at most `left k` more turns. -/
def OnTheWay {α : Type} (own : Nat → Nat) (ids : Identities) (result : Nat → α) (left : Nat → Nat) (s : Threads α) : Prop :=
  ∀ k, ∃ nt nc q h st, Sim own k (ids.id k) (fun _ _ x y => x = y) nt nc (s.prog k) q ∧ Holds own ids k s.mem h st nt nc ∧
    (q.exec h st).2.2 = result k ∧ q.turns h st ≤ left k

theorem onTheWay_turn {α : Type} {result : Nat → α} {left : Nat → Nat} {s : Threads α} (w : OnTheWay own ids result left s) (j : Nat) :
    OnTheWay own ids result (fun k => if k = j then left k - 1 else left k)
      ⟨(s.mem.access ids j (s.prog j)).1, Mem.put s.prog j (s.mem.access ids j (s.prog j)).2⟩ := by
  obtain ⟨nt, nc, q, h, st, h1, h2, h3, h4⟩ := w j
  intro k
  by_cases hk : k = j
  · subst hk
    obtain ⟨nt', nc', q', h', st', g1, g2, g3, g4⟩ := own_access h1 h2
    refine ⟨nt', nc', q', h', st', ?_, g2, by rw [g3]; exact h3, ?_⟩
    · show Sim _ _ _ _ _ _ (Mem.put _ _ _ _) _
      rw [Mem.put_same]
      exact g1
    · dsimp only; rw [if_pos rfl, g4]; omega
  · obtain ⟨nt', nc', q', h', st', g1, g2, g3, g4⟩ := w k
    refine ⟨nt', nc', q', h', st', ?_, other_access (fun e => hk e.symm) h1 g2, g3, ?_⟩
    · show Sim _ _ _ _ _ _ (Mem.put _ _ _ _) _
      rw [Mem.put_other _ _ hk]
      exact g1
    · dsimp only; rw [if_neg hk]; exact g4

theorem onTheWay_run {α : Type} {result : Nat → α} (sched : List Nat) {left : Nat → Nat} {s : Threads α}
    (w : OnTheWay own ids result left s) : OnTheWay own ids result (fun k => left k - sched.count k) (s.run ids sched) := by
  induction sched generalizing left s with
  | nil => exact w
  | cons j sched ih =>
    have := ih (onTheWay_turn w j)
    intro k
    obtain ⟨nt, nc, q, h, st, h1, h2, h3, h4⟩ := this k
    refine ⟨nt, nc, q, h, st, h1, h2, h3, Nat.le_trans h4 ?_⟩
    dsimp only
    rw [List.count_cons]
    by_cases hk : k = j
    · subst hk; simp; omega
    · have : (j == k) = false := by simp; exact fun e => hk e.symm
      simp [hk, this]

theorem onTheWay_done {α : Type} {result : Nat → α} {left : Nat → Nat} {s : Threads α} (w : OnTheWay own ids result left s) (k : Nat) :
    (∀ x, s.prog k = .ret x → x = result k) ∧ (left k = 0 → s.prog k = .ret (result k)) := by
  obtain ⟨nt, nc, q, h, st, h1, h2, h3, h4⟩ := w k
  refine ⟨fun x hx => ?_, fun h0 => ?_⟩
  · rw [hx] at h1
    cases h1 with
    | ret hr => rw [hr]; exact h3
  · rw [h0] at h4
    generalize s.prog k = p at h1
    cases h1 with
    | ret hr => rw [hr]; exact congrArg _ h3
    | getCell => simp [Prog.turns] at h4
    | setR => simp [Prog.turns] at h4
    | newCell => simp [Prog.turns] at h4
    | getTree => simp [Prog.turns] at h4
    | setLst => simp [Prog.turns] at h4
    | addChild => simp [Prog.turns] at h4
    | newTree => simp [Prog.turns] at h4
    | getEvent => simp [Prog.turns] at h4
    | setEvent => simp [Prog.turns] at h4

end

variable [FloatEnv]

namespace Spec

/-- The threads of a program, each with a project of its own: nothing is opened yet, and each does its actions one after the
other. -/
def threads (actions : Nat → List Action) : Threads (List Outcome × Prog.Seen) := ⟨.empty, fun k => Prog.script none (actions k)⟩

/-- What a program that does one action after the other sees of the project `k`. -/
def sees (prog : List (Nat × Action)) (k : Nat) : List Outcome × Prog.Seen := (outcomes start k prog, (start.run prog).seen k)

end Spec

theorem threads_start (own : Nat → Nat) (actions : Nat → List Action) (ids : Identities)
    (hown : ∀ k, ∀ a ∈ actions k, ∀ ref, Brings a ref → own ref = k) :
    ∃ left, OnTheWay own ids (fun k => sees ((actions k).map fun a => (k, a)) k) left (threads actions) := by
  have no : ∀ {n : Nat} {P : Prop}, n < 0 → P := fun h => absurd h (Nat.not_lt_zero _)
  have w : SetApart own start (fun _ => 0) (fun _ => 0) :=
    ⟨⟨fun _ h => no h, fun _ h => no h, fun _ h => no h, fun _ h => no h⟩, fun _ _ h => by cases h⟩
  refine ⟨fun k => (Prog.script none (actions k)).turns ⟨[], []⟩ fun _ => default, fun k => ?_⟩
  refine ⟨0, 0, Prog.script none (actions k), ⟨[], []⟩, fun _ => default, ?_, ?_, ?_, Nat.le_refl _⟩
  · exact Prog.sim_script (o := none) (ids.later k) (fun p h => by cases h) (hown k)
  · exact ⟨rfl, rfl, rfl, fun _ h => no h, fun _ h => no h, fun _ _ => rfl, fun _ h => no h, fun _ h => no h⟩
  · exact Prog.exec_script (s := start) (actions k) w (hown k)

/-- **C142.**  Any number of threads, each of which opens a project, makes event objects, puts them into event trees, takes events
out, splits trees, changes events and header values and saves; no event object is put into the projects of two threads.  The
threads are interrupted between any two accesses to memory.  Then, for every schedule, a thread that has come to its end has seen
what it would see of its project in any program without threads that does the same to this project (and whatever it does to others,
in whatever order); and a thread comes to its end if it gets enough turns, however many of the others have. -/
theorem C142_threads (own : Nat → Nat) (actions : Nat → List Action) (ids : Identities)
    (hown : ∀ k, ∀ a ∈ actions k, ∀ ref, Brings a ref → own ref = k) (k : Nat) :
    ∃ n, ∀ sched : List Nat, ∀ own' prog, OwnObjects own' prog → (prog.filter fun x => x.1 = k) = (actions k).map (fun a => (k, a)) →
      (∀ x, ((threads actions).run ids sched).prog k = .ret x → x = sees prog k) ∧
      (n ≤ sched.count k → ((threads actions).run ids sched).prog k = .ret (sees prog k)) := by
  obtain ⟨left, w⟩ := threads_start own actions ids hown
  refine ⟨left k, fun sched own' prog hprog hk => ?_⟩
  have e : sees prog k = sees ((actions k).map fun a => (k, a)) k := by
    obtain ⟨h1, h2⟩ := C141_alone own' prog hprog k
    unfold sees
    rw [h1, h2, hk]
  rw [e]
  obtain ⟨h1, h2⟩ := onTheWay_done (onTheWay_run sched w) k
  exact ⟨h1, fun h => h2 (by omega)⟩

/-- There are such identities. -/
def someIdentities : Identities where
  id k n := (k + n) * (k + n) + n
  fresh k n k' n' e := by
    have key : ∀ {a b x y : Nat}, x ≤ a → a < b → a * a + x = b * b + y → False := by
      intro a b x y hx hab he
      have h1 : (a + 1) * (a + 1) ≤ b * b := Nat.mul_le_mul hab hab
      have h2 : (a + 1) * (a + 1) = a * a + 2 * a + 1 := by
        rw [Nat.add_mul, Nat.mul_add]; omega
      omega
    have hs : k + n = k' + n' := by
      rcases Nat.lt_trichotomy (k + n) (k' + n') with h | h | h
      · exact (key (by omega) h e).elim
      · exact h
      · exact (key (by omega) h e.symm).elim
    rw [hs] at e
    omega
  later k n := Nat.le_add_left _ _

/-- Threads as in `C142_threads`. -/
example (file : Bytes) :
    let actions : Nat → List Action := fun
      | 0 => [.parse file fun i => 2 * i, .divide 0 64 [64, 0, 9], .pop 1 64 0, .save]
      | 1 => [.parse file fun i => 2 * i + 1, .make 101 ⟨9, .u8, .lv (.int 1), 1⟩, .insert 0 0 101, .assign 0 0 (.lv (.int 0)), .save]
      | _ => []
    ∀ k, ∀ a ∈ actions k, ∀ ref, Brings a ref → (ref % 2 : Nat) = k := by
  intro actions k a ha ref hb
  match k with
  | 0 =>
    simp only [actions, List.mem_cons, List.not_mem_nil, or_false] at ha
    rcases ha with rfl | rfl | rfl | rfl
    · obtain ⟨i, rfl⟩ := hb; dsimp only; omega
    · cases hb
    · cases hb
    · cases hb
  | 1 =>
    simp only [actions, List.mem_cons, List.not_mem_nil, or_false] at ha
    rcases ha with rfl | rfl | rfl | rfl | rfl
    · obtain ⟨i, rfl⟩ := hb; dsimp only; omega
    · cases hb; rfl
    · cases hb; rfl
    · cases hb
    · cases hb
  | n + 2 => cases ha

/-! ### Two threads in one project -/

/-- The positions of the events in a tree. -/
def Mem.positions (m : Mem) (t : Nat) : List Int := (m.trees t).lst.map fun a => (m.cells a).r

/-- The memory after a thread has opened a file with one event. -/
def afterOpening : Mem :=
  { cells := Mem.put (fun _ => default) 0 ⟨0, 0, 64⟩
    trees := Mem.put (fun _ => default) 0 ⟨none, 0, [0], []⟩
    store := Mem.put (fun _ => default) 0 ⟨64, .u16, .lv (.int 0), 2⟩
    made := Mem.put (fun _ => (0, 0)) 0 (1, 1) }

/-- Two threads which both execute `tree.insert(0, event)` for the tree of that project, with an event object each. -/
def twoInsertions : Threads (Py Unit) :=
  ⟨afterOpening, fun k => if k = 1 then .insert 0 0 1 9 else if k = 2 then .insert 0 0 2 9 else .ret (.ok ())⟩

theorem afterOpening_reached {file : Bytes} (hp : parseFile file = .ok oneEvent) :
    ((threads fun k => if k = 0 then [.parse file id] else []).run someIdentities (List.replicate 4 0)).mem = afterOpening := by
  have e : (threads fun k => if k = 0 then [Action.parse file id] else []).prog 0 =
      .setEvent 0 ⟨64, .u16, .lv (.int 0), 2⟩ (.newCell ⟨0, 0, 64⟩ fun a => .getCell a fun c =>
        .newTree none none (((sortBy (fun x y : Nat × Cell => decide (x.2.r ≤ y.2.r)) [(a, c)])).map Prod.fst) fun t =>
          (Prog.script (some ⟨0, 1, 96, [t]⟩) []).bind fun s => .ret (Outcome.done :: s.1, s.2)) := by
    show Prog.bind (Prog.step none (.parse file id)) _ = _
    unfold Prog.step
    dsimp only
    rw [hp]
    rfl
  have run4 : ∀ {α : Type} (s : Threads α) (p1 p2 p3 p4 : Prog α) (m1 m2 m3 m4 : Mem),
      s.mem.access someIdentities 0 (s.prog 0) = (m1, p1) → m1.access someIdentities 0 p1 = (m2, p2) →
      m2.access someIdentities 0 p2 = (m3, p3) → m3.access someIdentities 0 p3 = (m4, p4) →
      (s.run someIdentities (List.replicate 4 0)).mem = m4 := by
    intro α s p1 p2 p3 p4 m1 m2 m3 m4 h1 h2 h3 h4
    simp only [List.replicate, Threads.run, Mem.put_same, h1, h2, h3, h4]
  have e1 := congrArg (Mem.access someIdentities 0 (threads fun k => if k = 0 then [Action.parse file id] else []).mem) e
  refine (run4 _ _ _ _ _ _ _ _ _ e1 rfl rfl rfl).trans ?_
  unfold afterOpening
  refine Mem.mk.injEq .. ▸ ⟨rfl, rfl, rfl, ?_⟩
  funext k
  show Mem.put (Mem.put (fun _ => (0, 0)) 0 _) 0 _ k = _
  unfold Mem.put
  split <;> rfl

/-- Two threads in the same project are not kept apart: both of them see the same positions and make room, and then both put their
event at the same position.  Afterwards two events have the position 0 and none has the position 1, which does not happen if one
thread follows the other, in either order.  (The memory is that of an opened project.) -/
theorem C142_race_refuted :
    (∃ actions sched, ((threads actions).run someIdentities sched).mem = twoInsertions.mem) ∧
    ∃ sched, ((twoInsertions.run someIdentities sched).prog 1 = .ret (.ok ()) ∧
      (twoInsertions.run someIdentities sched).prog 2 = .ret (.ok ()) ∧
      (twoInsertions.run someIdentities sched).mem.positions 0 = [0, 0, 2]) ∧
    ∀ sched', sched' = List.replicate 20 1 ++ List.replicate 20 2 ∨ sched' = List.replicate 20 2 ++ List.replicate 20 1 →
      (twoInsertions.run someIdentities sched').prog 1 = .ret (.ok ()) ∧
      (twoInsertions.run someIdentities sched').prog 2 = .ret (.ok ()) ∧
      (twoInsertions.run someIdentities sched').mem.positions 0 = [0, 1, 2] := by
  refine ⟨oneEvent_file.elim fun file hp => ⟨_, _, afterOpening_reached hp⟩, [1, 1, 1, 2, 2, 2, 1, 1, 2, 2] ++ List.replicate 6 1 ++ List.replicate 7 2, ⟨rfl, rfl, by decide +kernel⟩, ?_⟩
  rintro sched' (rfl | rfl)
  · exact ⟨rfl, rfl, by decide +kernel⟩
  · exact ⟨rfl, rfl, by decide +kernel⟩

end PyFLP
