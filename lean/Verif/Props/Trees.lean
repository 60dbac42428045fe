import Verif.TreeSpec
/-!
# Properties of event trees: editing through views (C20 – C25)
-/

namespace PyFLP

open Spec Heap

namespace Spec

/-- Operations on the project's event list. -/
inductive RootOp
  | insert (pos : Int) (e : Ev)
  | pop (id : Nat) (n : Int)
  | remove (id : Nat) (n : Int)

/-- The same operation on a plain list: new list, and the result or exception. -/
def plainStep (l : List Ev) : RootOp → List Ev × Py (Option Nat)
  | .insert pos e =>
    match plainInsert l pos e with
    | .ok l' => (l', .ok none)
    | .error x => (l, .error x)
  | .pop id n =>
    match plainPop l id n with
    | .ok (e, l') => (l', .ok (some e.1))
    | .error x => (l, .error x)
  | .remove id n =>
    match plainPop l id n with
    | .ok (_, l') => (l', .ok none)
    | .error x => (l, .error x)

/-- The operation on the topmost tree. -/
def treeStep (h : Heap) : RootOp → Heap × Py (Option Nat)
  | .insert pos e => let r := h.insert 0 pos e.1 e.2; (r.1, r.2.map fun _ => none)
  | .pop id n => let r := h.pop 0 id n; (r.1, r.2.map some)
  | .remove id n => let r := h.remove 0 id n; (r.1, r.2.map fun _ => none)

/-- Any number of operations, with all results. -/
def runOps {σ : Type} (step : σ → RootOp → σ × Py (Option Nat)) : σ → List RootOp → σ × List (Py (Option Nat))
  | s, [] => (s, [])
  | s, op :: ops =>
    let r := step s op
    let rs := runOps step r.1 ops
    (rs.1, r.2 :: rs.2)

end Spec

theorem isEmpty_shown (h : Heap) (t : Nat) : shown h t = [] ↔ h.lst t = [] := by simp [shown]

theorem position_lt {n : Nat} {pos : Int} {k : Nat} (h : position n pos = some k) :
    k < n ∧ (k : Int) = if 0 ≤ pos then pos else pos + n := by
  unfold position at h
  split at h
  · cases h
    next hp => rw [if_pos hp.1]; omega
  · split at h
    · cases h
      next hp => rw [if_neg (by omega)]; omega
    · cases h

theorem insert_error {h : Heap} {t : Nat} (s : h.Sorted (h.lst t)) {pos : Int} {ref id : Nat}
    (hne : h.lst t ≠ []) (hp : position (h.lst t).length pos = none) :
    h.insert t pos ref id = (h, .error .indexError) := by
  have he : (h.lst t).isEmpty = false := by
    cases hl : h.lst t with
    | nil => exact absurd hl hne
    | cons => rfl
  unfold Heap.insert
  rw [he, sortedIndexes_sorted s, pyIndex_map, pyIndex_position, hp]
  rfl

/-- One operation on the topmost tree of a good hierarchy. -/
theorem treeStep_plain {h : Heap} {V : Nat → Prop} (g : Good h 0 V) (op : RootOp) :
    shown (treeStep h op).1 0 = (plainStep (shown h 0) op).1 ∧
    (treeStep h op).2 = (plainStep (shown h 0) op).2 ∧ ∃ W, Good (treeStep h op).1 0 W := by
  have hpop : ∀ id n, (∃ e, h.pop 0 id n = (h, .error e) ∧ plainPop (shown h 0) id n = .error e) ∨
      ∃ h' ev l', h.pop 0 id n = (h', .ok ev.1) ∧ plainPop (shown h 0) id n = .ok (ev, l') ∧
        shown h' 0 = l' ∧ ∃ W, Good h' 0 W := by
    intro id n
    obtain ⟨p1, p2⟩ := pop_shown g g.vρ id n
    cases hp : plainPop (shown h 0) id n with
    | error e => exact .inl ⟨e, p1 e hp, rfl⟩
    | ok res =>
      obtain ⟨ev, l'⟩ := res
      obtain ⟨h', ie, e1, _, _, _, e5, _, _, _, e9⟩ := p2 ev l' hp
      exact .inr ⟨h', ev, l', e1, rfl, e5, _, e9⟩
  cases op with
  | insert pos e =>
    by_cases he : h.lst 0 = []
    · obtain ⟨h', n, e1, e2, e3, e4, e5, e6, e7, e8⟩ :=
        insert_root_good g pos e.1 e.2 (k := 0) (.inl ⟨he, rfl⟩)
      simp only [treeStep, e1, plainStep, plainInsert, (isEmpty_shown h 0).2 he, if_true]
      refine ⟨?_, rfl, V, e8⟩
      rw [he] at e7
      simp [shown, e7, e4]
    · have hne : shown h 0 ≠ [] := fun e => he ((isEmpty_shown h 0).1 e)
      cases hp : position (h.lst 0).length pos with
      | none =>
        simp only [treeStep, insert_error g.sortedρ he hp, plainStep, plainInsert, hne, if_false,
          shown_length, hp]
        exact ⟨trivial, rfl, V, g⟩
      | some k =>
        obtain ⟨k1, k2⟩ := position_lt hp
        obtain ⟨h', n, e1, e2, e3, e4, e5, e6, e7, e8⟩ :=
          insert_root_good g pos e.1 e.2 (k := k) (.inr ⟨k1, k2⟩)
        simp only [treeStep, e1, plainStep, plainInsert, hne, if_false, shown_length, hp]
        refine ⟨?_, rfl, V, e8⟩
        have hc : (h.lst 0).map (fun a => ((h'.cell a).ref, (h'.cell a).id)) = shown h 0 :=
          List.map_congr_left fun a ha => by
            obtain ⟨c1, c2⟩ := e5 a (g.inCells a ha)
            rw [c1, c2]
        rw [shown, e7, List.map_append, List.map_cons, List.map_take, List.map_drop, hc, e4]
  | pop id n =>
    rcases hpop id n with ⟨e, h1, h2⟩ | ⟨h', ev, l', h1, h2, h3, h4⟩
    · simp only [treeStep, h1, plainStep, h2]
      exact ⟨trivial, rfl, V, g⟩
    · simp only [treeStep, h1, plainStep, h2]
      exact ⟨h3, rfl, h4⟩
  | remove id n =>
    rcases hpop id n with ⟨e, h1, h2⟩ | ⟨h', ev, l', h1, h2, h3, h4⟩
    · simp only [treeStep, Heap.remove, h1, plainStep, h2]
      exact ⟨trivial, rfl, V, g⟩
    · simp only [treeStep, Heap.remove, h1, plainStep, h2]
      exact ⟨h3, rfl, h4⟩

/-- C20. Any sequence of `insert`, `pop` and `remove` on a project's event list gives
the same results, exceptions and events as on a plain list (a failing operation
leaves the plain list as it was). -/
theorem C20_root_list {h : Heap} {L : Nat → Prop} (r : Reach h L) (ops : List RootOp) :
    shown (runOps treeStep h ops).1 0 = (runOps plainStep (shown h 0) ops).1 ∧
    (runOps treeStep h ops).2 = (runOps plainStep (shown h 0) ops).2 := by
  have key : ∀ (ops : List RootOp) (h : Heap), (∃ V, Good h 0 V) →
      shown (runOps treeStep h ops).1 0 = (runOps plainStep (shown h 0) ops).1 ∧
      (runOps treeStep h ops).2 = (runOps plainStep (shown h 0) ops).2 := by
    intro ops
    induction ops with
    | nil => intro h _; exact ⟨rfl, rfl⟩
    | cons op ops ih =>
      intro h ⟨V, g⟩
      obtain ⟨s1, s2, s3⟩ := treeStep_plain g op
      obtain ⟨i1, i2⟩ := ih _ s3
      simp only [runOps]
      rw [s1] at i1 i2
      exact ⟨i1, by rw [i2, s2]⟩
  exact key ops h ⟨L, (reach_good r).1⟩

/-- Three events; insert before the last, pop the first, insert before the first,
and two failing operations. -/
example : Reach (ofEvents [(10, 1), (11, 2), (12, 1)]) (· = 0) ∧
    runOps plainStep [(10, 1), (11, 2), (12, 1)]
      [.insert (-1) (13, 5), .pop 1 0, .insert 0 (14, 1), .insert 9 (15, 1), .pop 7 0, .remove 1 (-1)] =
      ([(14, 1), (11, 2), (13, 5)],
        [.ok none, .ok (some 10), .ok none, .error .indexError, .error .keyError, .ok none]) :=
  ⟨.parsed _ (by decide), by decide +kernel⟩

/-! ### C21 -/

/-- C21. `pop` on an up-to-date view of any depth takes the selected event out of
the view and out of every tree above it, changes nothing else, and reports a
missing event or a wrong position without changing anything. -/
theorem C21_pop_through_view {h : Heap} {L : Nat → Prop} (r : Reach h L) {t : Nat} (ht : L t) (id : Nat)
    (n : Int) :
    match plainPop (shown h t) id n with
    | .error x => h.pop t id n = (h, .error x) ∧ h.remove t id n = (h, .error x)
    | .ok (e, l') => ∃ h', h.pop t id n = (h', .ok e.1) ∧ h.remove t id n = (h', .ok ()) ∧
        e.2 = id ∧ e ∈ shown h t ∧ shown h' t = l' ∧
        (∀ u ∈ t :: h.ancestors t, e ∈ shown h u ∧ shown h' u = (shown h u).filter fun x => x.1 ≠ e.1) ∧
        (∀ u ∉ t :: h.ancestors t, shown h' u = shown h u) ∧
        (∀ u, h'.parent u = h.parent u) := by
  obtain ⟨g, hn⟩ := reach_good r
  obtain ⟨p1, p2⟩ := pop_shown g ht id n
  obtain ⟨c1, c2, c3⟩ := g.chain_facts t ht
  cases hp : plainPop (shown h t) id n with
  | error x =>
    have := p1 x hp
    exact ⟨this, by unfold Heap.remove; rw [this]⟩
  | ok res =>
    obtain ⟨e, l'⟩ := res
    obtain ⟨h', ie, e1, e2, e3, e4, e5, e6, e7, e8, e9⟩ := p2 e l' hp
    have hmem : ∀ u ∈ t :: h.ancestors t, ie ∈ h.lst u := fun u hu => (c2 u hu).2.2.mem e2
    refine ⟨h', e1, by unfold Heap.remove; rw [e1], e4, ?_, e5, ?_, ?_, e7.parent⟩
    · rw [e3]; exact List.mem_map.2 ⟨ie, e2, rfl⟩
    · intro u hu
      refine ⟨by rw [e3]; exact List.mem_map.2 ⟨ie, hmem u hu, rfl⟩, ?_⟩
      have hnu : ((shown h u).map Prod.fst).Nodup := by
        refine hn.sublist ?_
        unfold shown
        exact ((g.sub u (c2 u hu).1).map _).map _
      have := shown_filter e6 hnu (by rw [e8, if_pos hu]) (hmem u hu)
      rw [this, e3]
    · intro u hu
      rw [shown_congr e6 u _ (e8 u), if_neg hu]
      rfl

namespace TreeDemo

/-- A project of six events. -/
def h0 : Heap := ofEvents [(0, 64), (1, 203), (2, 64), (3, 203), (4, 21), (5, 64)]
/-- One view per channel (numbers 1, 2, 3). -/
def channels : ViewCall := .divide 64 [64, 203, 21]
/-- A view of the second channel (number 4). -/
def names : ViewCall := .subtree fun a => decide (a = 3)
/-- The project with the channel views. -/
def h1 : Heap := (view h0 0 channels).1
/-- The project with all views. -/
def h2 : Heap := (view h1 2 names).1

theorem reach0 : Reach h0 (· = 0) := .parsed _ (by decide)
theorem views1 : (view h0 0 channels).2 = [1, 2, 3] := by decide +kernel
theorem views2 : (view h1 2 names).2 = [4] := by decide +kernel

theorem reach1 : Reach h1 (fun u => u ≤ 3) := by
  have := Reach.view reach0 rfl (by decide +kernel) channels
  rw [views1] at this
  have e : (fun u => u = 0 ∨ u ∈ [1, 2, 3]) = fun u => u ≤ 3 := by
    funext u
    simp only [List.mem_cons, List.not_mem_nil, or_false, eq_iff_iff]
    omega
  rw [← e]
  exact this

theorem reach2 : Reach h2 (fun u => u ≤ 4) := by
  have := Reach.view reach1 (t := 2) (by decide) (by decide +kernel) names
  rw [views2] at this
  have e : (fun u => u ≤ 3 ∨ u ∈ [4]) = fun u => u ≤ 4 := by
    funext u
    simp only [List.mem_cons, List.not_mem_nil, or_false, eq_iff_iff]
    omega
  rw [← e]
  exact this

end TreeDemo

open TreeDemo in
/-- Views of views: the name of the second channel can be removed through view 4. -/
example : Reach h2 (fun u => u ≤ 4) ∧ shown h2 2 = [(2, 64), (3, 203), (4, 21)] ∧ shown h2 4 = [(3, 203)] ∧
    h2.ancestors 4 = [2, 0] ∧ plainPop (shown h2 4) 203 0 = .ok ((3, 203), []) :=
  ⟨reach2, by decide +kernel, by decide +kernel, by decide +kernel, by decide +kernel⟩

/-! ### C22 -/

namespace Spec

/-- The trees above `w` (and `w` itself) show no event of `v`, or are above `v` too. -/
def Apart (h : Heap) (v w : Nat) : Prop :=
  ∀ m ∈ w :: h.ancestors w, m ∈ v :: h.ancestors v ∨ ∀ e ∈ shown h v, e.1 ∉ (shown h m).map Prod.fst

/-- A removal through a view. -/
structure Removal where
  tree : Nat
  id : Nat
  n : Int

/-- Runs the removals; the results are the removed events or exceptions. -/
def runRemovals : Heap → List Removal → Heap × List (Py Nat)
  | h, [] => (h, [])
  | h, op :: ops =>
    let r := h.pop op.tree op.id op.n
    let rs := runRemovals r.1 ops
    (rs.1, r.2 :: rs.2)

/-- The same removals on separate plain lists, one per view. -/
def runPlainRemovals : (Nat → List Ev) → List Removal → (Nat → List Ev) × List (Py Nat)
  | c, [] => (c, [])
  | c, op :: ops =>
    match plainPop (c op.tree) op.id op.n with
    | .error x =>
      let rs := runPlainRemovals c ops
      (rs.1, .error x :: rs.2)
    | .ok (e, l) =>
      let rs := runPlainRemovals (fun u => if u = op.tree then l else c u) ops
      (rs.1, .ok e.1 :: rs.2)

/-- The events among the results. -/
def removed (rs : List (Py Nat)) : List Nat := rs.filterMap fun r => r.toOption

end Spec

theorem runPlainRemovals_congr {c c' : Nat → List Ev} {ops : List Removal} {S : Nat → Prop}
    (hops : ∀ op ∈ ops, S op.tree) (hc : ∀ u, S u → c u = c' u) :
    (runPlainRemovals c ops).2 = (runPlainRemovals c' ops).2 ∧
    ∀ u, S u → (runPlainRemovals c ops).1 u = (runPlainRemovals c' ops).1 u := by
  induction ops generalizing c c' with
  | nil => exact ⟨rfl, hc⟩
  | cons op ops ih =>
    have hS := hops op (by simp)
    have hops' := fun o ho => hops o (List.mem_cons_of_mem _ ho)
    unfold runPlainRemovals
    rw [hc _ hS]
    cases hp : plainPop (c' op.tree) op.id op.n with
    | error x =>
      obtain ⟨i1, i2⟩ := ih hops' hc
      exact ⟨by simp only [i1], i2⟩
    | ok res =>
      obtain ⟨e, l⟩ := res
      obtain ⟨i1, i2⟩ := ih (c := fun u => if u = op.tree then l else c u)
        (c' := fun u => if u = op.tree then l else c' u) hops' (fun u hu => by
          by_cases e : u = op.tree
          · simp only [e, if_true]
          · simp only [e, if_false]; exact hc u hu)
      exact ⟨by simp only [i1], i2⟩

/-- C22. Removals through views that share no events, in any order: every view
behaves like a plain list of its own, and the project loses exactly the removed
events. -/
theorem C22_removals_compose {h : Heap} {L : Nat → Prop} (r : Reach h L) (views : Nat → Prop)
    (live : ∀ v, views v → L v) (apart : ∀ v w, views v → views w → v ≠ w → Apart h v w) (ops : List Removal)
    (hops : ∀ op ∈ ops, views op.tree) :
    (runRemovals h ops).2 = (runPlainRemovals (shown h) ops).2 ∧
    (∀ v, views v → shown (runRemovals h ops).1 v = (runPlainRemovals (shown h) ops).1 v) ∧
    shown (runRemovals h ops).1 0 =
      (shown h 0).filter (fun e => e.1 ∉ removed (runRemovals h ops).2) ∧
    (removed (runRemovals h ops).2).Nodup := by
  induction ops generalizing h L with
  | nil =>
    refine ⟨rfl, fun _ _ => rfl, ?_, by simp [runRemovals, removed]⟩
    exact (List.filter_eq_self.2 fun e _ => by simp [runRemovals, removed]).symm
  | cons op ops ih =>
    have hv := hops op (by simp)
    have hops' : ∀ o ∈ ops, views o.tree := fun o ho => hops o (List.mem_cons_of_mem _ ho)
    have c21 := C21_pop_through_view r (live _ hv) op.id op.n
    cases hp : plainPop (shown h op.tree) op.id op.n with
    | error x =>
      rw [hp] at c21
      obtain ⟨i1, i2, i3, i4⟩ := ih r live apart hops'
      have e1 : runRemovals h (op :: ops) = ((runRemovals h ops).1, .error x :: (runRemovals h ops).2) := by
        rw [runRemovals, c21.1]
      have e2 : runPlainRemovals (shown h) (op :: ops) =
          ((runPlainRemovals (shown h) ops).1, .error x :: (runPlainRemovals (shown h) ops).2) := by
        rw [runPlainRemovals, hp]
      have e3 : removed (.error x :: (runRemovals h ops).2) = removed (runRemovals h ops).2 := rfl
      rw [e1, e2]
      dsimp only
      rw [e3]
      exact ⟨by rw [i1], i2, i3, i4⟩
    | ok res =>
      obtain ⟨e, l'⟩ := res
      rw [hp] at c21
      obtain ⟨h', q1, q2, q3, q4, q5, q6, q7, q8⟩ := c21
      have hanc : ∀ u, h'.ancestors u = h.ancestors u := fun u => ancestors_congr q8 u
      have hsub : ∀ u, ∀ x ∈ shown h' u, x ∈ shown h u := by
        intro u x hx
        by_cases hu : u ∈ op.tree :: h.ancestors op.tree
        · rw [(q6 u hu).2] at hx; exact (List.mem_filter.1 hx).1
        · rw [q7 u hu] at hx; exact hx
      have hother : ∀ v, views v → v ≠ op.tree → shown h' v = shown h v := by
        intro v hvv hne
        by_cases hu : v ∈ op.tree :: h.ancestors op.tree
        · -- `v` is above the edited view: being apart, it shows none of its events
          rcases apart op.tree v hv hvv (fun e => hne e.symm) v (by simp) with hm | hm
          · have := apart v op.tree hvv hv hne op.tree (by simp)
            rcases this with hm' | hm'
            · exfalso
              obtain ⟨g, _⟩ := reach_good r
              have hle := ((g.chain_facts _ (live _ hv)).2.1 v hm).2.1
              have hle' := ((g.chain_facts _ (live _ hvv)).2.1 op.tree hm').2.1
              exact hne (by omega)
            · have hev := (q6 v hu).1
              exact absurd (List.mem_map.2 ⟨e, q4, rfl⟩) (hm' e hev)
          · exact absurd (List.mem_map.2 ⟨e, (q6 v hu).1, rfl⟩) (hm e q4)
        · exact q7 v hu
      have r' := Reach.pop r (live _ hv) q1
      have live' : ∀ v, views v → L v ∧ ∀ w ∈ v :: h.ancestors v,
          w ∈ op.tree :: h.ancestors op.tree ∨ e.1 ∉ (shown h w).map Prod.fst := by
        intro v hvv
        refine ⟨live v hvv, fun w hw => ?_⟩
        by_cases hne : v = op.tree
        · subst hne; exact .inl hw
        · rcases apart op.tree v hv hvv (fun e => hne e.symm) w hw with hm | hm
          · exact .inl hm
          · exact .inr (hm e q4)
      have apart' : ∀ v w, views v → views w → v ≠ w → Apart h' v w := by
        intro v w hv1 hw1 hne m hm
        rw [hanc] at hm
        rw [hanc]
        refine (apart v w hv1 hw1 hne m hm).imp_right fun hd x hx hc => ?_
        obtain ⟨y, hy, he⟩ := List.mem_map.1 hc
        exact hd x (hsub v x hx) (List.mem_map.2 ⟨y, hsub m y hy, he⟩)
      obtain ⟨i1, i2, i3, i4⟩ := ih r' live' apart' hops'
      have e1 : runRemovals h (op :: ops) = ((runRemovals h' ops).1, .ok e.1 :: (runRemovals h' ops).2) := by
        rw [runRemovals, q1]
      have e2 : runPlainRemovals (shown h) (op :: ops) =
          ((runPlainRemovals (fun u => if u = op.tree then l' else shown h u) ops).1,
            .ok e.1 :: (runPlainRemovals (fun u => if u = op.tree then l' else shown h u) ops).2) := by
        rw [runPlainRemovals, hp]
      have hcongr := runPlainRemovals_congr (c := shown h')
        (c' := fun u => if u = op.tree then l' else shown h u) (S := views) hops' (by
          intro u hu
          by_cases he : u = op.tree
          · simp only [he, if_true]; exact q5
          · simp only [he, if_false]; exact hother u hu he)
      have e3 : ∀ rs, removed (.ok e.1 :: rs) = e.1 :: removed rs := fun _ => rfl
      have hroot : (0 : Nat) ∈ op.tree :: h.ancestors op.tree :=
        ((reach_good r).1.chain_facts _ (live _ hv)).1
      have hr0 := (q6 0 hroot).2
      rw [e1, e2]
      dsimp only
      rw [e3]
      refine ⟨by rw [i1, hcongr.1], fun v hvv => (i2 v hvv).trans (hcongr.2 v hvv), ?_, ?_⟩
      · rw [i3, hr0, List.filter_filter]
        apply List.filter_congr
        intro x _
        by_cases h1 : x.1 = e.1 <;> by_cases h2 : x.1 ∈ removed (runRemovals h' ops).2 <;> simp [h1, h2]
      · rw [List.nodup_cons]
        refine ⟨fun hm => ?_, i4⟩
        -- a later removal only returns events the project still shows
        have hlater : ∀ (ops : List Removal) (h : Heap) (L : Nat → Prop), Reach h L →
            (∀ op ∈ ops, views op.tree) → (∀ v, views v → L v) →
            (∀ v w, views v → views w → v ≠ w → Apart h v w) →
            ∀ x ∈ removed (runRemovals h ops).2, x ∈ (shown h 0).map Prod.fst := by
          intro ops
          induction ops with
          | nil => intro h L _ _ _ _ x hx; simp [runRemovals, removed] at hx
          | cons op ops ih2 =>
            intro h L r ho hl ha x hx
            have hv := ho op (by simp)
            have ho' : ∀ o ∈ ops, views o.tree := fun o h' => ho o (List.mem_cons_of_mem _ h')
            have c21 := C21_pop_through_view r (hl _ hv) op.id op.n
            cases hp : plainPop (shown h op.tree) op.id op.n with
            | error y =>
              rw [hp] at c21
              have e1 : runRemovals h (op :: ops) =
                  ((runRemovals h ops).1, .error y :: (runRemovals h ops).2) := by
                rw [runRemovals, c21.1]
              rw [e1] at hx
              exact ih2 h L r ho' hl ha x hx
            | ok res =>
              obtain ⟨e, l'⟩ := res
              rw [hp] at c21
              obtain ⟨h', q1, q2, q3, q4, q5, q6, q7, q8⟩ := c21
              have e1 : runRemovals h (op :: ops) =
                  ((runRemovals h' ops).1, .ok e.1 :: (runRemovals h' ops).2) := by
                rw [runRemovals, q1]
              rw [e1] at hx
              have hroot : (0 : Nat) ∈ op.tree :: h.ancestors op.tree :=
                ((reach_good r).1.chain_facts _ (hl _ hv)).1
              rcases List.mem_cons.1 (show x ∈ e.1 :: removed (runRemovals h' ops).2 from hx) with rfl | hx
              · exact List.mem_map.2 ⟨e, (q6 0 hroot).1, rfl⟩
              · have hanc : ∀ u, h'.ancestors u = h.ancestors u := fun u => ancestors_congr q8 u
                have hsub : ∀ u, ∀ x ∈ shown h' u, x ∈ shown h u := by
                  intro u x hx
                  by_cases hu : u ∈ op.tree :: h.ancestors op.tree
                  · rw [(q6 u hu).2] at hx; exact (List.mem_filter.1 hx).1
                  · rw [q7 u hu] at hx; exact hx
                have := ih2 h' _ (Reach.pop r (hl _ hv) q1) ho' (by
                    intro v hvv
                    refine ⟨hl v hvv, fun w hw => ?_⟩
                    by_cases hne : v = op.tree
                    · subst hne; exact .inl hw
                    · exact (ha op.tree v hv hvv (fun e => hne e.symm) w hw).imp_right fun hm => hm e q4)
                  (by
                    intro v w hv1 hw1 hne m hm
                    rw [hanc] at hm
                    rw [hanc]
                    refine (ha v w hv1 hw1 hne m hm).imp_right fun hd x hx hc => ?_
                    obtain ⟨y, hy, he⟩ := List.mem_map.1 hc
                    exact hd x (hsub v x hx) (List.mem_map.2 ⟨y, hsub m y hy, he⟩)) x hx
                obtain ⟨y, hy, rfl⟩ := List.mem_map.1 this
                exact List.mem_map.2 ⟨y, hsub 0 y hy, rfl⟩
        have := hlater ops h' _ r' hops' live' apart' e.1 hm
        obtain ⟨y, hy, he⟩ := List.mem_map.1 this
        rw [hr0] at hy
        have := (List.mem_filter.1 hy).2
        simp [he] at this

open TreeDemo in
/-- The three channels of the demo project are apart. -/
example : Reach h1 (fun u => u ≤ 3) ∧ (∀ v w, v ∈ [1, 2, 3] → w ∈ [1, 2, 3] → v ≠ w → Apart h1 v w) ∧
    shown h1 1 = [(0, 64), (1, 203)] ∧ shown h1 2 = [(2, 64), (3, 203), (4, 21)] ∧ shown h1 3 = [(5, 64)] := by
  refine ⟨reach1, ?_, by decide +kernel, by decide +kernel, by decide +kernel⟩
  have : ∀ v ∈ [1, 2, 3], ∀ w ∈ [1, 2, 3], v ≠ w → ∀ m ∈ w :: h1.ancestors w,
      m ∈ v :: h1.ancestors v ∨ ∀ e ∈ shown h1 v, e.1 ∉ (shown h1 m).map Prod.fst := by decide +kernel
  exact fun v w hv hw hne => this v hv w hw hne

/-! ### C23 -/

theorem pair_eq {α β : Type} {x : α × β} {b : β} (h : x.2 = b) : x = (x.1, b) := by
  cases x; cases h; rfl

/-- C23 is false: an event shown by two views and removed through both takes
another event with it.  Here events 0 and 1 have ids 7 and 8; both views show event
0 only; the second removal returns event 0 again and deletes event 1. -/
theorem C23_double_removal_refuted :
    ∃ (h : Heap) (v w : Nat), (∃ L, Reach h L ∧ L v ∧ L w) ∧ shown h v = [(0, 7)] ∧ shown h w = [(0, 7)] ∧
      shown h 0 = [(0, 7), (1, 8)] ∧
      ∃ h1 h2, h.pop v 7 0 = (h1, .ok 0) ∧ shown h1 0 = [(1, 8)] ∧
        h1.pop w 7 0 = (h2, .ok 0) ∧ shown h2 0 = [] := by
  let call : ViewCall := .subtree fun a => decide (a = 0)
  let h := (view (view (ofEvents [(0, 7), (1, 8)]) 0 call).1 0 call).1
  have e1 : (view (ofEvents [(0, 7), (1, 8)]) 0 call).2 = [1] := by decide +kernel
  have e2 : (view (view (ofEvents [(0, 7), (1, 8)]) 0 call).1 0 call).2 = [2] := by decide +kernel
  have r1 := Reach.view (Reach.parsed [(0, 7), (1, 8)] (by decide)) rfl (by decide +kernel) call
  have r2 := Reach.view r1 (t := 0) (.inl rfl) (by decide +kernel) call
  rw [e1, e2] at r2
  refine ⟨h, 1, 2, ⟨_, r2, .inl (.inr (by simp)), .inr (by simp)⟩, by decide +kernel, by decide +kernel,
    by decide +kernel, (h.pop 1 7 0).1, ((h.pop 1 7 0).1.pop 2 7 0).1, ?_, by decide +kernel, ?_,
    by decide +kernel⟩
  · exact pair_eq (by decide +kernel)
  · exact pair_eq (by decide +kernel)

/-- C23 for views one above the other: after a removal through a view, removals
through any tree above it find that event gone and remove exactly what they
return.  Missing: overlapping views neither of which is above the other, where the
property fails. -/
theorem C23_overlap_partial {h h1 : Heap} {L : Nat → Prop} (r : Reach h L) {t u : Nat} (ht : L t) {id : Nat}
    {n : Int} {x : Nat} (hp : h.pop t id n = (h1, .ok x)) (hu : u ∈ t :: h.ancestors t) (id' : Nat) (n' : Int) :
    x ∉ (shown h1 u).map Prod.fst ∧
    ∀ h2 y, h1.pop u id' n' = (h2, .ok y) →
      y ≠ x ∧ shown h2 0 = (shown h1 0).filter fun e => e.1 ≠ y := by
  have r1 := Reach.pop r ht hp
  obtain ⟨g, hn⟩ := reach_good r
  obtain ⟨c1, c2, c3⟩ := g.chain_facts t ht
  have c21 := C21_pop_through_view r ht id n
  have hx : x ∉ (shown h1 u).map Prod.fst := by
    cases hpp : plainPop (shown h t) id n with
    | error e => rw [hpp] at c21; rw [c21.1] at hp; cases hp
    | ok res =>
      obtain ⟨e, l'⟩ := res
      rw [hpp] at c21
      obtain ⟨h', q1, q2, q3, q4, q5, q6, q7, q8⟩ := c21
      rw [hp] at q1
      injection q1 with q1 q1'
      subst q1
      injection q1' with q1'
      subst q1'
      rw [(q6 u hu).2]
      intro hm
      obtain ⟨y, hy, he⟩ := List.mem_map.1 hm
      have := (List.mem_filter.1 hy).2
      simp [he] at this
  refine ⟨hx, fun h2 y hp2 => ?_⟩
  have hchain : ∀ u' t', L t' → u' ∈ t' :: h.ancestors t' → ∀ w ∈ u' :: h.ancestors u',
      w ∈ t' :: h.ancestors t' := by
    intro u' t'
    induction t' using Nat.strongRecOn with
    | ind t' ih =>
      intro ht' hu' w hw
      rcases List.mem_cons.1 hu' with rfl | hu'
      · exact hw
      · by_cases e : t' = 0
        · subst e; rw [ancestors_none g.parρ] at hu'; cases hu'
        · obtain ⟨p, p1, p2, p3, _⟩ := g.up t' ht' e
          rw [ancestors_some g p3 p1 p2] at hu' ⊢
          exact List.mem_cons_of_mem _ (ih p p2 p3 hu' w hw)
  have hlive : L u ∧ ∀ w ∈ u :: h.ancestors u, w ∈ t :: h.ancestors t ∨ x ∉ (shown h w).map Prod.fst :=
    ⟨(c2 u hu).1, fun w hw => .inl (hchain u t ht hu w hw)⟩
  have c21' := C21_pop_through_view r1 hlive id' n'
  cases hpp : plainPop (shown h1 u) id' n' with
  | error e => rw [hpp] at c21'; rw [c21'.1] at hp2; cases hp2
  | ok res =>
    obtain ⟨e, l'⟩ := res
    rw [hpp] at c21'
    obtain ⟨h', q1, q2, q3, q4, q5, q6, q7, q8⟩ := c21'
    rw [hp2] at q1
    injection q1 with q1 q1'
    subst q1
    injection q1' with q1'
    subst q1'
    refine ⟨fun he => hx (he ▸ List.mem_map.2 ⟨e, q4, rfl⟩), ?_⟩
    have h0 : (0 : Nat) ∈ u :: h1.ancestors u := ((reach_good r1).1.chain_facts u hlive).1
    exact (q6 0 h0).2

open TreeDemo in
/-- Remove the name of channel 2 through view 4, then its routing through view 2. -/
example : Reach h2 (fun u => u ≤ 4) ∧ (h2.pop 4 203 0).2 = .ok 3 ∧ 2 ∈ 4 :: h2.ancestors 4 ∧
    ((h2.pop 4 203 0).1.pop 2 21 0).2 = .ok 4 :=
  ⟨reach2, by decide +kernel, by decide +kernel, by decide +kernel⟩

/-! ### C24 -/

/-- Where a sorted list splits at one of its elements. -/
theorem filter_at {h : Heap} {l : List Nat} (s : h.Sorted l) {a : Nat} (ha : a ∈ l) :
    ∃ i, l[i]? = some a ∧ l.filter (fun b => decide (h.r b < h.r a)) = l.take i ∧
      l.filter (fun b => !decide (h.r b < h.r a)) = l.drop i := by
  obtain ⟨p, q, h1, _⟩ := takeWhile_lt s ha
  subst h1
  rw [Heap.Sorted, List.pairwise_append] at s
  obtain ⟨s1, s2, s3⟩ := s
  rw [List.pairwise_cons] at s2
  refine ⟨p.length, by simp, ?_, ?_⟩
  · rw [List.filter_append, List.filter_eq_self.2 (fun b hb => by simpa using s3 b hb a (by simp)),
      List.filter_eq_nil_iff.2 (fun b hb => by
        rcases List.mem_cons.1 hb with rfl | hb
        · simp
        · have := s2.1 b hb; simp; omega)]
    simp
  · rw [List.filter_append, List.filter_eq_nil_iff.2 (fun b hb => by simpa using s3 b hb a (by simp)),
      List.filter_eq_self.2 (fun b hb => by
        rcases List.mem_cons.1 hb with rfl | hb
        · simp
        · have := s2.1 b hb; simp; omega)]
    simp

/-- C24, one insertion: through an up-to-date view that is not empty, the event lands
at `pos` of the view, and in every tree above immediately before the event the view
had at `pos`; nothing else changes.  Bad positions raise `IndexError` and change
nothing.  This holds after any earlier insertions and removals, through whatever
views.  Missing: later insertions through the same view, unless it is the topmost tree
(the view and the trees above hold separate position records for the new event, and
the property fails). -/
theorem C24_insert_partial {h : Heap} {L : Nat → Prop} (r : Reach h L) {t : Nat} (ht : L t)
    (hne : shown h t ≠ []) (pos : Int) (e : Ev) :
    match position (shown h t).length pos with
    | none => h.insert t pos e.1 e.2 = (h, .error .indexError)
    | some k => ∃ h', h.insert t pos e.1 e.2 = (h', .ok ()) ∧
        shown h' t = (shown h t).take k ++ e :: (shown h t).drop k ∧
        (∀ u ∈ t :: h.ancestors t, ∃ i, (shown h u)[i]? = (shown h t)[k]? ∧
          shown h' u = (shown h u).take i ++ e :: (shown h u).drop i) ∧
        (∀ u, L u → u ∉ t :: h.ancestors t → shown h' u = shown h u) := by
  obtain ⟨g, hn⟩ := reach_good r
  have hl : h.lst t ≠ [] := fun e => hne ((isEmpty_shown h t).2 e)
  have hemp : (h.lst t).isEmpty = false := by
    cases hl' : h.lst t with
    | nil => exact absurd hl' hl
    | cons => rfl
  cases hp : position (shown h t).length pos with
  | none =>
    dsimp only
    rw [shown_length] at hp
    exact insert_error (g.sorted ht) hl hp
  | some k =>
    dsimp only
    obtain ⟨k1, _⟩ := position_lt hp
    rw [shown_length] at hp k1
    have hidx : pyIndex (h.lst t) pos = some (h.lst t)[k] := by
      rw [pyIndex_position, hp]; simp [k1]
    obtain ⟨h', e1, e2, e3, e4, e5, e6⟩ := insert_good g ht pos e.1 e.2 (x := h.r (h.lst t)[k])
      (by rw [hemp, hidx]; rfl)
    obtain ⟨c1, c2, c3⟩ := g.chain_facts t ht
    have hsh : ∀ u, L u → (h.lst u).map (fun a => ((h'.cell a).ref, (h'.cell a).id)) = shown h u := by
      intro u hu
      apply List.map_congr_left
      intro a ha
      obtain ⟨q1, q2, _⟩ := e4 a (g.inCells a ((g.sub u hu).mem ha))
      rw [q1, q2]
    have hgen : ∀ u ∈ t :: h.ancestors t, ∃ i, (h.lst u)[i]? = some (h.lst t)[k] ∧
        shown h' u = (shown h u).take i ++ e :: (shown h u).drop i := by
      intro u hu
      obtain ⟨v1, v2, v3⟩ := c2 u hu
      obtain ⟨n, n1, n2, n3, n4⟩ := e6 u hu
      obtain ⟨i, i1, i2, i3⟩ := filter_at (g.sorted v1) (v3.mem (List.getElem_mem k1))
      refine ⟨i, i1, ?_⟩
      rw [i2, i3] at n4
      rw [shown, n4, List.map_append, List.map_cons, List.map_take, List.map_drop, hsh u v1, n3]
    refine ⟨h', e1, ?_, ?_, ?_⟩
    · obtain ⟨i, i1, i2⟩ := hgen t (by simp)
      have : i = k := by
        obtain ⟨hi, hv⟩ := List.getElem?_eq_some_iff.1 i1
        exact (List.getElem_inj (g.sorted ht).nodup).1 hv
      rw [i2, this]
    · intro u hu
      obtain ⟨i, i1, i2⟩ := hgen u hu
      refine ⟨i, ?_, i2⟩
      simp [shown, i1, k1]
    · intro u hLu hu
      rw [shown, e5 u hu, hsh u hLu]

open TreeDemo in
/-- Insert a name before the second event of channel 2. -/
example : Reach h2 (fun u => u ≤ 4) ∧ shown h2 2 ≠ [] ∧ position (shown h2 2).length (-2) = some 1 ∧
    shown (h2.insert 2 (-2) 9 203).1 0 = [(0, 64), (1, 203), (2, 64), (9, 203), (3, 203), (4, 21), (5, 64)] :=
  ⟨reach2, by decide +kernel, by decide +kernel, by decide +kernel⟩

/-- Two insertions before the event with id 8: each through a new view of it. -/
example : ∃ (h1 h2 : Heap) (L : Nat → Prop), Reach h1 L ∧ L 2 ∧ shown h1 2 = [(1, 8)] ∧
    shown h1 0 = [(0, 7), (2, 9), (1, 8)] ∧ h1.insert 2 0 3 9 = (h2, .ok ()) ∧
    shown h2 0 = [(0, 7), (2, 9), (3, 9), (1, 8)] := by
  have r0 : Reach (Heap.ofEvents [(0, 7), (1, 8)]) (· = 0) := .parsed _ (by decide)
  have r1 := Reach.view r0 rfl (by decide +kernel) (.separate 8)
  have r2 := Reach.insert (t := 1) (pos := 0) (ref := 2) (id := 9) r1 (.inr (by decide +kernel)) (by decide +kernel) rfl
  have r3 := Reach.view (t := 0) r2 ⟨.inl rfl, by decide +kernel⟩ (by decide +kernel) (.separate 8)
  exact ⟨_, _, _, r3, .inr (by decide +kernel), by decide +kernel, by decide +kernel, rfl, by decide +kernel⟩

/-- C24 is false for two insertions: a view of the second of two events; inserting
event 2, then event 3, at position 0 of the view leaves the view showing 2, 3, 1 and
the project 0, 3, 2, 1. -/
theorem C24_repeated_insert_refuted :
    ∃ (h : Heap) (v : Nat), (∃ L, Reach h L ∧ L v) ∧ shown h 0 = [(0, 7), (1, 8)] ∧ shown h v = [(1, 8)] ∧
      ∃ h1 h2, h.insert v 0 2 9 = (h1, .ok ()) ∧ h1.insert v 0 3 9 = (h2, .ok ()) ∧
        shown h2 v = [(2, 9), (3, 9), (1, 8)] ∧ shown h2 0 = [(0, 7), (3, 9), (2, 9), (1, 8)] := by
  let call : ViewCall := .subtree fun a => decide (a = 1)
  let h := (view (ofEvents [(0, 7), (1, 8)]) 0 call).1
  have e1 : (view (ofEvents [(0, 7), (1, 8)]) 0 call).2 = [1] := by decide +kernel
  have r1 := Reach.view (Reach.parsed [(0, 7), (1, 8)] (by decide)) rfl (by decide +kernel) call
  rw [e1] at r1
  refine ⟨h, 1, ⟨_, r1, .inr (by simp)⟩, by decide +kernel, by decide +kernel, (h.insert 1 0 2 9).1,
    ((h.insert 1 0 2 9).1.insert 1 0 3 9).1, ?_, ?_, by decide +kernel, by decide +kernel⟩
  · exact pair_eq (by decide +kernel)
  · exact pair_eq (by decide +kernel)

/-! ### C25 -/

theorem eraseDups_length_le : ∀ (n : Nat) (l : List Int), l.length ≤ n → l.eraseDups.length ≤ l.length := by
  intro n
  induction n with
  | zero =>
    intro l hl
    have : l = [] := List.length_eq_zero_iff.1 (by omega)
    subst this; simp
  | succ n ih =>
    intro l hl
    cases l with
    | nil => simp
    | cons a l =>
      rw [List.eraseDups_cons, List.length_cons, List.length_cons]
      have h1 : (l.filter fun b => !b == a).length ≤ l.length := List.length_filter_le _ _
      have h2 := ih (l.filter fun b => !b == a) (by simp at hl; omega)
      omega

/-- C25 is false: `append` raises `IndexError` on every tree that has events, and
changes nothing. -/
theorem C25_append_refuted (h : Heap) (t : Nat) (hne : shown h t ≠ []) (e : Ev) :
    h.append t e.1 e.2 = (h, .error .indexError) := by
  have hemp : (h.lst t).isEmpty = false := by
    cases hl' : h.lst t with
    | nil => exact absurd ((isEmpty_shown h t).2 hl') hne
    | cons => rfl
  unfold Heap.append Heap.insert
  rw [hemp]
  have hlen : (h.sortedIndexes t).length ≤ (h.lst t).length := by
    have := eraseDups_length_le _ (sortBy (fun a b => decide (a ≤ b)) ((h.lst t).map h.r)) (Nat.le_refl _)
    rw [(sortBy_perm _ _).length_eq, List.length_map] at this
    exact this
  have : pyIndex (h.sortedIndexes t) ((h.lst t).length : Int) = none := by
    unfold pyIndex
    rw [if_pos (by omega)]
    exact List.getElem?_eq_none (by omega)
  rw [this]
  rfl

/-- A tree with events. -/
example : shown (ofEvents [(0, 1)]) 0 ≠ [] := by decide +kernel

/-- C25 for an empty project: `append` adds the event.  Missing: everything else, see
`C25_append_refuted`. -/
theorem C25_append_partial {h : Heap} {L : Nat → Prop} (r : Reach h L) (hne : shown h 0 = []) (e : Ev) :
    ∃ h', h.append 0 e.1 e.2 = (h', .ok ()) ∧ shown h' 0 = [e] := by
  obtain ⟨g, _⟩ := reach_good r
  obtain ⟨h', n, e1, e2, e3, e4, e5, e6, e7, e8⟩ :=
    insert_root_good g ((h.lst 0).length : Int) e.1 e.2 (k := 0) (.inl ⟨(isEmpty_shown h 0).1 hne, rfl⟩)
  refine ⟨h', e1, ?_⟩
  rw [(isEmpty_shown h 0).1 hne] at e7
  simp [shown, e7, e4]

example : Reach (ofEvents []) (· = 0) ∧ shown (ofEvents []) 0 = [] := ⟨.parsed _ (by decide), rfl⟩

end PyFLP
